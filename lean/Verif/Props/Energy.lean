import Verif.Spec.Energy
import Verif.Props.Plasma

/-!
# The energy of a simulation (C104)
-/

set_option linter.unusedSectionVars false

namespace Dt
open Spec Poisson Dt.Topology TimeLoop
variable {K V τ ρ : Type} [Field K] [LinearOrder K] [IsStrictOrderedRing K] {g : Nat}

section
variable {eps : K} {D : DMesh K g} {vol : DSimplex K → K} {marker : Int → Int} {lo hi : Int} {v0 vN dt : K}

/-- The value of a linear function, from its gradient. -/
theorem valueAt_grad {c : DSimplex K} {u : Nat → K} {G x : Vec K g} {y : K} (hG : IsGrad D c u G) (h : ValueAt D c u x y) :
    y = u ((c.verts[0]?).getD 0) + dot G (x - corner D c 0) := by
  obtain ⟨w, hs, hx, rfl⟩ := h
  have h1 : ∀ i : Fin (g + 1), u ((c.verts[i.1]?).getD 0) = u ((c.verts[0]?).getD 0) + dot G (corner D c i - corner D c 0) := by
    intro i
    rw [hG i]
    ring
  have h2 : dot G (x - corner D c 0) = ∑ i, w i * dot G (corner D c i - corner D c 0) := by
    have e : ∀ e, (x - corner D c 0) e = ∑ i, w i * (corner D c i e - corner D c 0 e) := by
      intro e
      simp only [mul_sub, Finset.sum_sub_distrib, ← Finset.sum_mul, hs, one_mul, Pi.sub_apply, hx e]
    simp only [dot, e, Finset.mul_sum]
    rw [Finset.sum_comm]
    refine Finset.sum_congr rfl fun i _ => Finset.sum_congr rfl fun e _ => ?_
    rw [Pi.sub_apply]
    ring
  rw [h2]
  conv_lhs => enter [2, i]; rw [h1 i, mul_add]
  rw [Finset.sum_add_distrib, ← Finset.sum_mul, hs, one_mul]

theorem dot_add_left (a b x : Vec K g) : dot (a + b) x = dot a x + dot b x := by
  simp only [dot, Pi.add_apply, add_mul, Finset.sum_add_distrib]

theorem dot_add_right (a b x : Vec K g) : dot x (a + b) = dot x a + dot x b := by
  simp only [dot, Pi.add_apply, mul_add, Finset.sum_add_distrib]

theorem dot_smul_right (a : K) (b x : Vec K g) : dot x (a • b) = a * dot x b := by
  simp only [dot, Pi.smul_apply, smul_eq_mul, Finset.mul_sum]
  exact Finset.sum_congr rfl fun i _ => by ring

theorem dot_comm' (a b : Vec K g) : dot a b = dot b a := by
  simp only [dot, mul_comm]

theorem isGrad_sub {c : DSimplex K} {u v : Nat → K} {G H : Vec K g} (h : IsGrad D c u G) (h' : IsGrad D c v H) :
    IsGrad D c (fun i => u i - v i) (G - H) := by
  intro j
  have e : dot (G - H) (corner D c j - corner D c 0) = dot G (corner D c j - corner D c 0) - dot H (corner D c j - corner D c 0) := by
    rw [sub_eq_add_neg G, dot_add_left, dot_neg_left]
    ring
  rw [e, h j, h' j]
  ring

/-- The value of the function `u` with the gradient `G` at a point of a simplex. -/
def lin (D : DMesh K g) (u : Nat → K) (G : DSimplex K → Vec K g) (z : Vec K g × DSimplex K) : K :=
  u ((z.2.verts[0]?).getD 0) + dot (G z.2) (z.1 - corner D z.2 0)

theorem lin_value {u : Nat → K} {G : DSimplex K → Vec K g} {c : DSimplex K} (hG : IsGrad D c u (G c)) {x : Vec K g}
    (h : InHull (corner D c) x) : ValueAt D c u x (lin D u G (x, c)) := by
  obtain ⟨y, hy⟩ := valueAt_of_hull h u
  have := valueAt_grad hG hy
  unfold lin
  rw [← this]
  exact hy

theorem sum_pairs {β : Type} {R : β → β → Prop} {l l' : List β} (h : List.Forall₂ R l l') (f f' : β → K) {e : β → β → K}
    (he : ∀ b b', R b b' → f' b' - f b = e b b') : (l'.map f').sum - (l.map f).sum = (List.zipWith e l l').sum := by
  induction h with
  | nil => simp
  | cons h _ ih =>
    simp only [List.map_cons, List.sum_cons, List.zipWith_cons_cons]
    rw [← ih, ← he _ _ h]
    ring

/-- C104 (balance).  How the energy changes in a leapfrog step of all particles: only particles that change their simplex
contribute, and what they contribute is the work of the mean field minus the loss of potential energy.  `s b` and `s' b'`
are the values of the sum of the two potentials at the places of the particles before and after the step. -/
theorem C104_balance {bs bs' : List (Body K g)} {phi phi' : Nat → K} {E E' : DSimplex K → Vec K g}
    (hp : IsPotentialOf eps D vol marker lo hi v0 vN bs phi E) (hp' : IsPotentialOf eps D vol marker lo hi v0 vN bs' phi' E')
    (hin : ∀ b ∈ bs, b.c ∈ D.cells ∧ InHull (corner D b.c) b.x) (hin' : ∀ b ∈ bs', b.c ∈ D.cells ∧ InHull (corner D b.c) b.x)
    (hq : ∀ b ∈ bs, b.qom * b.m = b.q) (hmv : List.Forall₂ (Body.Moves dt E) bs bs') {W W' : K}
    (hW : HasEnergy eps D vol dt bs phi E W) (hW' : HasEnergy eps D vol dt bs' phi' E' W') {s s' : Body K g → K}
    (hs : ∀ b ∈ bs, ValueAt D b.c (fun i => phi i + phi' i) b.x (s b))
    (hs' : ∀ b ∈ bs', ValueAt D b.c (fun i => phi i + phi' i) b.x (s' b)) :
    W' - W = (List.zipWith (fun b b' => b.q / 2 * (s' b' - s b + dot (E b.c + E' b'.c) (b'.x - b.x))) bs bs').sum ∧
    ∀ b ∈ bs, ∀ b' ∈ bs', b.c = b'.c → s' b' - s b + dot (E b.c + E' b'.c) (b'.x - b.x) = 0 := by
  have hvan : Vanishes D marker lo hi (fun i => phi' i - phi i) := by
    intro i hi'
    show phi' i - phi i = 0
    by_cases h2 : OnSide D marker hi i
    · rw [hp.sides.high i h2, hp'.sides.high i h2, sub_self]
    · have h1 := hi'.resolve_right h2
      rw [hp.sides.low i h1 h2, hp'.sides.low i h1 h2, sub_self]
  have hgr : ∀ c ∈ D.cells, IsGrad D c (fun i => phi' i - phi i) (-(E' c) - -(E c)) := fun c hc =>
    isGrad_sub (hp'.gradient c hc) (hp.gradient c hc)
  have hgs : ∀ c ∈ D.cells, IsGrad D c (fun i => phi i + phi' i) (-(E c) - E' c) := by
    intro c hc j
    have h1 := hp.gradient c hc j
    have h2 := hp'.gradient c hc j
    rw [dot_neg_left] at h1 h2
    rw [sub_eq_add_neg, dot_add_left, dot_neg_left, dot_neg_left, h1, h2]
    ring
  obtain ⟨val, hv, rfl⟩ := hW
  obtain ⟨val', hv', rfl⟩ := hW'
  have g1 := hp.gauss _ (fun c => -(E' c) - -(E c)) (lin D (fun i => phi' i - phi i) (fun c => -(E' c) - -(E c))) hvan hgr
    (fun b hb => lin_value (hgr _ (hin b hb).1) (hin b hb).2)
  have g2 := hp'.gauss _ (fun c => -(E' c) - -(E c)) (lin D (fun i => phi' i - phi i) (fun c => -(E' c) - -(E c))) hvan hgr
    (fun b hb => lin_value (hgr _ (hin' b hb).1) (hin' b hb).2)
  have hpair : pairing eps D vol E (fun c => -(E' c) - -(E c)) + pairing eps D vol E' (fun c => -(E' c) - -(E c)) =
      pairing eps D vol E E - pairing eps D vol E' E' := by
    unfold pairing
    generalize D.cells = l
    induction l with
    | nil => simp
    | cons c l ih =>
      simp only [List.map_cons, List.sum_cons]
      have e1 : dot (E c) (-(E' c) - -(E c)) = dot (E c) (E c) - dot (E c) (E' c) := by
        have : -(E' c) - -(E c) = E c + -(E' c) := by abel
        rw [this, dot_add_right, dot_comm' (E c) (-(E' c)), dot_neg_left, dot_comm' (E' c)]
        ring
      have e2 : dot (E' c) (-(E' c) - -(E c)) = dot (E c) (E' c) - dot (E' c) (E' c) := by
        have : -(E' c) - -(E c) = E c + -(E' c) := by abel
        rw [this, dot_add_right, dot_comm' (E' c) (-(E' c)), dot_neg_left, dot_comm' (E' c) (E c)]
        ring
      rw [e1, e2]
      linear_combination ih
  have hval : ∀ b ∈ bs, val (b.x, b.c) = lin D phi (fun c => -(E c)) (b.x, b.c) := fun b hb =>
    valueAt_grad (hp.gradient _ (hin b hb).1) (hv b hb)
  have hval' : ∀ b ∈ bs', val' (b.x, b.c) = lin D phi' (fun c => -(E' c)) (b.x, b.c) := fun b hb =>
    valueAt_grad (hp'.gradient _ (hin' b hb).1) (hv' b hb)
  have hss : ∀ b ∈ bs, s b = lin D (fun i => phi i + phi' i) (fun c => -(E c) - E' c) (b.x, b.c) := fun b hb =>
    valueAt_grad (hgs _ (hin b hb).1) (hs b hb)
  have hss' : ∀ b ∈ bs', s' b = lin D (fun i => phi i + phi' i) (fun c => -(E c) - E' c) (b.x, b.c) := fun b hb =>
    valueAt_grad (hgs _ (hin' b hb).1) (hs' b hb)
  -- sums and differences of values
  have hadd : ∀ z, lin D (fun i => phi i + phi' i) (fun c => -(E c) - E' c) z =
      lin D phi (fun c => -(E c)) z + lin D phi' (fun c => -(E' c)) z := by
    intro z
    simp only [lin, sub_eq_add_neg (-(E z.2)), dot_add_left]
    ring
  have hsub : ∀ z, lin D (fun i => phi' i - phi i) (fun c => -(E' c) - -(E c)) z =
      lin D phi' (fun c => -(E' c)) z - lin D phi (fun c => -(E c)) z := by
    intro z
    simp only [lin, sub_eq_add_neg (-(E' z.2)), dot_add_left, dot_neg_left]
    ring
  have hmem : List.Forall₂ (fun b b' => b ∈ bs ∧ b' ∈ bs' ∧ Body.Moves dt E b b') bs bs' := by
    rw [List.forall₂_iff_get] at hmv ⊢
    refine ⟨hmv.1, fun i h1 h2 => ⟨List.get_mem _ _, List.get_mem _ _, hmv.2 i h1 h2⟩⟩
  refine ⟨?_, ?_⟩
  · have key := sum_pairs (e := fun b b' => b.q / 2 * (s' b' - s b + dot (E b.c + E' b'.c) (b'.x - b.x))) hmem
      (fun b => b.m / 2 * dot b.u (b.kicked dt E) + b.q * val (b.x, b.c) +
        b.q * lin D (fun i => phi' i - phi i) (fun c => -(E' c) - -(E c)) (b.x, b.c) / 2)
      (fun b => b.m / 2 * dot b.u (b.kicked dt E') + b.q * val' (b.x, b.c) -
        b.q * lin D (fun i => phi' i - phi i) (fun c => -(E' c) - -(E c)) (b.x, b.c) / 2) (by
      rintro b b' ⟨hb, hb', h⟩
      rw [hval b hb, hval' b' hb', hss b hb, hss' b' hb', hadd, hadd, hsub, hsub, h.q, h.m]
      have hx : b'.x - b.x = dt • b'.u := by rw [h.x]; abel
      have hu : dot b.u (b.kicked dt E) = dot b'.u b'.u - b.qom * dt * dot (E b.c) b'.u := by
        have : b.u = b'.u + (-(b.qom * dt)) • E b.c := by rw [h.u, Body.kicked, neg_smul]; abel
        rw [← h.u, this, dot_add_left, dot_comm' ((-(b.qom * dt)) • E b.c), dot_smul_right, dot_comm' b'.u (E b.c)]
        ring
      have hu' : dot b'.u (b'.kicked dt E') = dot b'.u b'.u + b.qom * dt * dot (E' b'.c) b'.u := by
        rw [Body.kicked, dot_add_right, dot_smul_right, h.qom, dot_comm' b'.u (E' b'.c)]
      rw [hx, hu, hu', dot_smul_right, dot_add_left]
      have := hq b hb
      linear_combination (dt * (dot (E b.c) b'.u + dot (E' b'.c) b'.u) / 2) * this)
    rw [← key]
    have split : ∀ (l : List (Body K g)) (f h : Body K g → K) (a : K),
        (l.map (fun b => f b + a * h b)).sum = (l.map f).sum + a * (l.map h).sum := by
      intro l f h a
      induction l with
      | nil => simp
      | cons b l ih =>
        simp only [List.map_cons, List.sum_cons]
        rw [ih]
        ring
    have k1 := split bs (fun b => b.m / 2 * dot b.u (b.kicked dt E) + b.q * val (b.x, b.c))
      (fun b => b.q * lin D (fun i => phi' i - phi i) (fun c => -(E' c) - -(E c)) (b.x, b.c)) (1 / 2)
    have k2 := split bs' (fun b => b.m / 2 * dot b.u (b.kicked dt E') + b.q * val' (b.x, b.c))
      (fun b => b.q * lin D (fun i => phi' i - phi i) (fun c => -(E' c) - -(E c)) (b.x, b.c)) (-(1 / 2))
    have e1 : (fun b : Body K g => b.m / 2 * dot b.u (b.kicked dt E) + b.q * val (b.x, b.c) +
        b.q * lin D (fun i => phi' i - phi i) (fun c => -(E' c) - -(E c)) (b.x, b.c) / 2) =
        (fun b => b.m / 2 * dot b.u (b.kicked dt E) + b.q * val (b.x, b.c) +
        1 / 2 * (b.q * lin D (fun i => phi' i - phi i) (fun c => -(E' c) - -(E c)) (b.x, b.c))) := by funext b; ring
    have e2 : (fun b : Body K g => b.m / 2 * dot b.u (b.kicked dt E') + b.q * val' (b.x, b.c) -
        b.q * lin D (fun i => phi' i - phi i) (fun c => -(E' c) - -(E c)) (b.x, b.c) / 2) =
        (fun b => b.m / 2 * dot b.u (b.kicked dt E') + b.q * val' (b.x, b.c) +
        -(1 / 2) * (b.q * lin D (fun i => phi' i - phi i) (fun c => -(E' c) - -(E c)) (b.x, b.c))) := by funext b; ring
    rw [e1, e2, k1, k2]
    unfold fieldEnergy
    linear_combination (-1 / 2) * hpair + (1 / 2) * g1 + (1 / 2) * g2
  · intro b hb b' hb' hc
    rw [hss b hb, hss' b' hb', hc]
    simp only [lin]
    have : dot (-(E b'.c) - E' b'.c) (b'.x - corner D b'.c 0) - dot (-(E b'.c) - E' b'.c) (b.x - corner D b'.c 0) =
        -dot (E b'.c + E' b'.c) (b'.x - b.x) := by
      simp only [dot, Pi.sub_apply, Pi.neg_apply, Pi.add_apply]
      rw [← Finset.sum_sub_distrib, ← Finset.sum_neg_distrib]
      exact Finset.sum_congr rfl fun i _ => by ring
    linear_combination this

/-- C104 (one step).  If every particle stays in its simplex, a leapfrog step of all particles does not change the energy. -/
theorem C104_step {bs bs' : List (Body K g)} {phi phi' : Nat → K} {E E' : DSimplex K → Vec K g}
    (hp : IsPotentialOf eps D vol marker lo hi v0 vN bs phi E) (hp' : IsPotentialOf eps D vol marker lo hi v0 vN bs' phi' E')
    (hin : ∀ b ∈ bs, b.c ∈ D.cells ∧ InHull (corner D b.c) b.x) (hin' : ∀ b ∈ bs', b.c ∈ D.cells ∧ InHull (corner D b.c) b.x)
    (hq : ∀ b ∈ bs, b.qom * b.m = b.q) (hmv : List.Forall₂ (fun b b' => Body.Moves dt E b b' ∧ b'.c = b.c) bs bs') {W W' : K}
    (hW : HasEnergy eps D vol dt bs phi E W) (hW' : HasEnergy eps D vol dt bs' phi' E' W') : W' = W := by
  have hgs : ∀ c ∈ D.cells, IsGrad D c (fun i => phi i + phi' i) (-(E c) - E' c) := by
    intro c hc j
    have h1 := hp.gradient c hc j
    have h2 := hp'.gradient c hc j
    rw [dot_neg_left] at h1 h2
    rw [sub_eq_add_neg, dot_add_left, dot_neg_left, dot_neg_left, h1, h2]
    ring
  obtain ⟨h1, h2⟩ := C104_balance hp hp' hin hin' hq (hmv.imp fun _ _ h => h.1) hW hW'
    (s := fun b => lin D (fun i => phi i + phi' i) (fun c => -(E c) - E' c) (b.x, b.c))
    (s' := fun b => lin D (fun i => phi i + phi' i) (fun c => -(E c) - E' c) (b.x, b.c))
    (fun b hb => lin_value (hgs _ (hin b hb).1) (hin b hb).2) (fun b hb => lin_value (hgs _ (hin' b hb).1) (hin' b hb).2)
  have hz : ∀ (l l' : List (Body K g)), (∀ b ∈ l, b ∈ bs) → (∀ b ∈ l', b ∈ bs') →
      List.Forall₂ (fun b b' => Body.Moves dt E b b' ∧ b'.c = b.c) l l' →
      (List.zipWith (fun b b' => b.q / 2 * (lin D (fun i => phi i + phi' i) (fun c => -(E c) - E' c) (b'.x, b'.c) -
        lin D (fun i => phi i + phi' i) (fun c => -(E c) - E' c) (b.x, b.c) + dot (E b.c + E' b'.c) (b'.x - b.x))) l l').sum = 0 := by
    intro l l' m1 m2 h
    induction h with
    | nil => simp
    | @cons b b' l l' hbb _ ih =>
      rw [List.zipWith_cons_cons, List.sum_cons, ih (fun b hb => m1 b (by simp [hb])) (fun b hb => m2 b (by simp [hb])),
        h2 b (m1 b (by simp)) b' (m2 b' (by simp)) hbb.2.symm]
      ring
  rw [hz bs bs' (fun _ h => h) (fun _ h => h) hmv] at h1
  exact sub_eq_zero.1 h1

/-- C104 (grounded sides).  If the potential is zero at the sides, the potential energy is the energy of the field. -/
theorem C104_grounded {bs : List (Body K g)} {phi : Nat → K} {E : DSimplex K → Vec K g}
    (hp : IsPotentialOf eps D vol marker lo hi 0 0 bs phi E) {W : K} (hW : HasEnergy eps D vol dt bs phi E W) :
    W = (bs.map (fun b => b.m / 2 * dot b.u (b.kicked dt E))).sum + fieldEnergy eps D vol E := by
  obtain ⟨val, hv, rfl⟩ := hW
  have hvan : Vanishes D marker lo hi phi := by
    intro i hi'
    by_cases h2 : OnSide D marker hi i
    · exact hp.sides.high i h2
    · exact hp.sides.low i (hi'.resolve_right h2) h2
  have h1 := hp.gauss phi (fun c => -(E c)) val hvan hp.gradient hv
  have h2 : pairing eps D vol E (fun c => -(E c)) = -pairing eps D vol E E := by
    unfold pairing
    generalize D.cells = l
    induction l with
    | nil => simp
    | cons c l ih =>
      simp only [List.map_cons, List.sum_cons]
      rw [ih, dot_comm', dot_neg_left]
      ring
  have h3 : (bs.map (fun b => b.m / 2 * dot b.u (b.kicked dt E) + b.q * val (b.x, b.c))).sum =
      (bs.map (fun b => b.m / 2 * dot b.u (b.kicked dt E))).sum + (bs.map (fun b => b.q * val (b.x, b.c))).sum := by
    rw [List.sum_map_add]
  rw [h3]
  unfold fieldEnergy
  linear_combination h1 - h2

theorem energy_congr {bs : List (Body K g)} {phi : Nat → K} {E E' : DSimplex K → Vec K g} (h : ∀ c ∈ D.cells, E c = E' c)
    (hin : ∀ b ∈ bs, b.c ∈ D.cells) {W : K} (hW : HasEnergy eps D vol dt bs phi E W) : HasEnergy eps D vol dt bs phi E' W := by
  obtain ⟨val, hv, rfl⟩ := hW
  refine ⟨val, hv, ?_⟩
  unfold fieldEnergy
  rw [pairing_congr (F' := E') (G' := E') h h]
  congr 2
  refine List.map_congr_left fun b hb => ?_
  unfold Body.kicked
  rw [h _ (hin b hb)]

theorem energy_exists {bs : List (Body K g)} {phi : Nat → K} {E : DSimplex K → Vec K g}
    (hg : ∀ c ∈ D.cells, IsGrad D c phi (-(E c))) (hin : ∀ b ∈ bs, b.c ∈ D.cells ∧ InHull (corner D b.c) b.x) :
    ∃ W, HasEnergy eps D vol dt bs phi E W :=
  ⟨_, lin D phi (fun c => -(E c)), fun b hb => lin_value (hg _ (hin b hb).1) (hin b hb).2, rfl⟩

theorem energy_unique {bs : List (Body K g)} {phi : Nat → K} {E : DSimplex K → Vec K g}
    (hg : ∀ c ∈ D.cells, IsGrad D c phi (-(E c))) (hin : ∀ b ∈ bs, b.c ∈ D.cells) {W W' : K}
    (h : HasEnergy eps D vol dt bs phi E W) (h' : HasEnergy eps D vol dt bs phi E W') : W = W' := by
  obtain ⟨val, hv, rfl⟩ := h
  obtain ⟨val', hv', rfl⟩ := h'
  congr 2
  refine List.map_congr_left fun b hb => ?_
  rw [valueAt_grad (hg _ (hin b hb)) (hv b hb), valueAt_grad (hg _ (hin b hb)) (hv' b hb)]

end

section
variable {hg : g ≤ 3} {D : DMesh K g} {sh : Shape K g} {N : Nat} {marker pmarker : Int → Int} {eps : K} {lo hi : Int} {v0 vN : K}

/-- C104 (a simulation).  In every simulation of a plasma on a triangulation of a convex domain (the hypotheses are those of
C97; the weight of a particle is one of the attributes that do not change), every state has one energy, and it is that of the
state before if the charge-to-mass ratios are right, no particle is made or lost and none changes its simplex. -/
theorem C104_run (hD : Triangulation hg D) {dom : Vec K g → Bool} (hdom : ConvexDomain hg D dom) (junk : Int)
    (hpm : ∀ c ∈ D.cells, ∀ F ∈ c.facets, (∀ c' ∈ D.cells, F ∈ c'.facets → c'.index = c.index) → pmarker F ≠ 0)
    (he : 0 < eps) (hm : Meshed D sh N) (hl : ∀ i ≤ N, Linked D (fun i => OnSide D marker lo i ∨ OnSide D marker hi i) i)
    {dd : List (String × Int × Val K)}
    (h1 : dd.lookup "rmin" = some (lo, .num v0)) (h2 : dd.lookup "rmax" = some (hi, .num vN)) :
    ∃ M s, buildMesh hg D junk pmarker = .ok M ∧ createOn eps D sh N marker dd = .ok s ∧
      ∀ {bc : String → Int → τ → BCall K g g ρ → Except Err (τ × Part K g ρ)}, (∀ sn, PlainBC M (bc sn)) →
      ∀ {maxCross : Nat} {qom : String → K} {cfg : Cfg K V (Part K g ρ) (τ × Vec K g) (List (Vec K g))},
        cfg.move = pyMove (le_refl g) M bc maxCross cfg.dt qom (fun _ f q => (f[q.cell.toNat]?).map (fun e => -e)) →
        (∀ q q', q.rest = q'.rest → cfg.A.weight q = cfg.A.weight q') →
        (∀ s ∈ cfg.sources, ∀ count time side side' xs, s.make count time side = .ok (side', xs) → ∀ q ∈ xs, InSimplex D q) →
        ∀ {d : Nat → Nat} {C sl : Nat}, PlasmaOn cfg D sh N marker s d C → GoodCfg cfg →
        ∀ {z : Species.HRow K} (n : Nat) {init : Option (List (String × List (Part K g ρ)))},
        (∀ gs, init = some gs → ∀ a ∈ gs, ∀ q ∈ a.2, InSimplex D q) →
        ∀ {st : State K V (Part K g ρ) (τ × Vec K g) (List (Vec K g))} {i : Ideal K V (Part K g ρ) (τ × Vec K g)} {b : List K},
        Fresh sl (N + 1) C n z st i b → (i.pops.map (·.name)).Nodup → (st.writer = none → cfg.partEvery = none) →
        ∀ {i0 : Ideal K V (Part K g ρ) (τ × Vec K g)} {is : List (Ideal K V (Part K g ρ) (τ × Vec K g))},
          Ideal.run cfg sl (N + 1) (onCells D) init b n i = .ok (i0, is) →
          (∀ j ∈ (if init.isSome then [i0] else []) ++ is, ∃! W, EnergyOf eps D sh.vol qom cfg j W) ∧
          ((if init.isSome then [i0] else []) ++ is).IsChain (fun i j => (∀ p ∈ i.pops, qom p.name * p.mass = p.charge) →
            Calm cfg sl i j → ∀ W, EnergyOf eps D sh.vol qom cfg i W ↔ EnergyOf eps D sh.vol qom cfg j W) := by
  classical
  obtain ⟨M, e, -, hM⟩ := C88_conforming hD junk hpm
  obtain ⟨s, hs, hpot⟩ := C94_potential he hm hl h1 h2
  refine ⟨M, s, e, hs, ?_⟩
  intro bc hb maxCross qom cfg hmove hwt hsrc d C sl hP hc z n init hinit st i b hf hn hnone i0 is hr
  have hsrc' : SourcesPresent (le_refl g) M cfg.sources := fun s hs c t sd sd' xs ex q hq =>
    (present_built hD e).2 (hsrc s hs c t sd sd' xs ex q hq)
  have hinit' : InitPresent (le_refl g) M init := fun gs hgs a ha q hq => (present_built hD e).2 (hinit gs hgs a ha q hq)
  have hg' := hP.goodMesh hm
  have hall := (C73_in_its_cell hmove (fun sn => (hb sn).keepsCell) hsrc' hc hg' n hinit' hf hnone hr).1
  obtain ⟨hch, st', e2, ho⟩ := C75_run hM (convex_built hD e hdom) hb hmove hsrc' hc hg' n hinit' hf hn hnone hr
  obtain ⟨st2, -, -, hE⟩ := C96_gauss hc hg' n init hf hnone he hm hl h1 h2 hs hP.onMeshed hr
  have hLs : ∀ j ∈ (if init.isSome then [i0] else []) ++ is, j ∈ i0 :: is := by
    intro j hj
    rcases List.mem_append.1 hj with hj | hj
    · split at hj
      · simp only [List.mem_singleton] at hj
        simp [hj]
      · simp at hj
    · simp [hj]
  -- the simplex of a particle
  have hsx : ∀ j ∈ i0 :: is, ∀ pop ∈ j.pops, ∀ q ∈ pop.st.items, ∃ c ∈ D.cells, c.index = q.cell ∧ InHull (corner D c) q.x :=
    fun j hj pop hp q hq => ((present_built hD e).1 (hall j hj pop hp q hq)).1
  have hinj : ∀ c ∈ D.cells, ∀ c' ∈ D.cells, c.index = c'.index → c = c' := by
    intro c hc c' hc' h
    obtain ⟨k, k1, k2, -⟩ := hP.number hc
    obtain ⟨k', k1', k2', -⟩ := hP.number hc'
    have : k = k' := by
      rw [k2, k2'] at h
      exact_mod_cast h
    subst this
    rw [k1] at k1'
    exact Option.some.inj k1'
  let sx : Part K g ρ → DSimplex K := fun q =>
    if h : ∃ c ∈ D.cells, c.index = q.cell then h.choose else ⟨0, [], [], fun _ => 0⟩
  have hsx' : ∀ j ∈ i0 :: is, ∀ pop ∈ j.pops, ∀ q ∈ pop.st.items,
      sx q ∈ D.cells ∧ (sx q).index = q.cell ∧ InHull (corner D (sx q)) q.x := by
    intro j hj pop hp q hq
    obtain ⟨c, hc, hi, hh⟩ := hsx j hj pop hp q hq
    have hex : ∃ c ∈ D.cells, c.index = q.cell := ⟨c, hc, hi⟩
    have e : sx q = hex.choose := dif_pos hex
    have h1 := hex.choose_spec.1
    have h2 := hex.choose_spec.2
    rw [← e] at h1 h2
    refine ⟨h1, h2, ?_⟩
    rw [hinj _ h1 c hc (h2.trans hi.symm)]
    exact hh
  have hbody : ∀ j ∈ i0 :: is, ∀ b ∈ bodies cfg.A.weight (cfg.factor.getD 1) qom sx j.pops,
      b.c ∈ D.cells ∧ InHull (corner D b.c) b.x := by
    intro j hj b hb
    obtain ⟨pop, hp, hb⟩ := List.mem_flatMap.1 hb
    split at hb
    · cases hb
    · obtain ⟨q, hq, rfl⟩ := List.mem_map.1 hb
      exact ⟨(hsx' j hj pop hp q hq).1, (hsx' j hj pop hp q hq).2.2⟩
  have hsame : ∀ j ∈ i0 :: is, ∀ simplex : Part K g ρ → DSimplex K,
      (∀ p ∈ j.pops, ∀ q ∈ p.st.items, simplex q ∈ D.cells ∧ (simplex q).index = q.cell) →
      bodies cfg.A.weight (cfg.factor.getD 1) qom simplex j.pops = bodies cfg.A.weight (cfg.factor.getD 1) qom sx j.pops := by
    intro j hj simplex h
    unfold bodies
    refine List.flatMap_congr fun pop hp => ?_
    split
    · rfl
    · refine List.map_congr_left fun q hq => ?_
      obtain ⟨a1, a2, -⟩ := hsx' j hj pop hp q hq
      obtain ⟨b1, b2⟩ := h pop hp q hq
      rw [hinj _ b1 _ a1 (b2.trans a2.symm)]
  -- a field for each state
  have hfield : ∀ j ∈ (if init.isSome then [i0] else []) ++ is, ∃ E : DSimplex K → Vec K g,
      IsPotentialOf eps D sh.vol marker lo hi v0 vN (bodies cfg.A.weight (cfg.factor.getD 1) qom sx j.pops)
        (fun k => j.phi.getD k 0) E ∧
      (∀ pop ∈ j.pops, ∀ q ∈ pop.st.items, ((cfg.fieldOf j.phi)[q.cell.toNat]?).map (fun e => -e) = some (E (sx q))) ∧
      ∀ W, EnergyOf eps D sh.vol qom cfg j W ↔
        HasEnergy eps D sh.vol cfg.dt (bodies cfg.A.weight (cfg.factor.getD 1) qom sx j.pops) (fun k => j.phi.getD k 0) E W := by
    intro j hj
    have hj' := hLs j hj
    obtain ⟨F, f1, f2, f3, f4⟩ := hE j hj
    have hgr : ∀ c ∈ D.cells, IsGrad D c (fun k => j.phi.getD k 0) (-(-(F c))) := fun c hc => by rw [neg_neg]; exact f3 c hc
    refine ⟨fun c => -(F c), ⟨f2, hgr, ?_⟩, ?_, ?_⟩
    · intro v G val hv hG hval
      have hidx : ∀ q, sx q ∈ D.cells → (sx q).index = q.cell → (sx q).index = (cfg.A.cell q : Int) := by
        intro q hq hi
        obtain ⟨k, -, hk, -⟩ := hP.number hq
        rw [hP.cell, ← hi, hk]
        simp
      have := f4 v G (fun q => lin D v G (q.x, sx q)) hv hG (by
        intro q hq
        unfold chargedParticles at hq
        obtain ⟨pop, hp, hq⟩ := List.mem_flatMap.1 hq
        obtain ⟨q', hq', rfl⟩ := List.mem_map.1 hq
        obtain ⟨a1, a2, a3⟩ := hsx' j hj' pop hp q' hq'
        exact ⟨sx q', a1, hidx q' a1 a2, lin_value (hG _ a1) a3⟩)
      rw [pairing_neg, this]
      congr 1
      have e1 : ∀ b ∈ bodies cfg.A.weight (cfg.factor.getD 1) qom sx j.pops, b.q * val (b.x, b.c) = b.q * lin D v G (b.x, b.c) := by
        intro b hb
        rw [valueAt_grad (hG _ (hbody j hj' b hb).1) (hval b hb)]
        rfl
      rw [List.map_congr_left e1]
      unfold chargedParticles bodies
      simp only [List.map_flatMap]
      generalize j.pops = l
      induction l with
      | nil => rfl
      | cons p l ih =>
        simp only [List.flatMap_cons, List.sum_append]
        rw [ih]
        congr 1
        by_cases hq : p.charge = 0
        · simp only [hq, if_true, zero_mul, List.map_nil, List.sum_nil, List.map_map]
          rw [List.sum_eq_zero]
          intro y hy
          obtain ⟨q, -, rfl⟩ := List.mem_map.1 hy
          simp
        · simp only [hq, if_false, List.map_map]
          rfl
    · intro pop hp q hq
      obtain ⟨a1, a2, -⟩ := hsx' j hj' pop hp q hq
      obtain ⟨k, k1, k2, -⟩ := hP.number a1
      have hk : q.cell.toNat = k := by rw [← a2, k2]; simp
      rw [f1, hk]
      simp only [id, List.getElem?_map, k1, Option.map_some]
    · intro W
      constructor
      · rintro ⟨simplex, E, g1, g2, g3⟩
        rw [hsame j hj' simplex g1] at g3
        refine energy_congr (fun c hc => ?_) (fun b hb => (hbody j hj' b hb).1) g3
        exact neg_injective (isGrad_unique hm hc (g2 c hc) (hgr c hc))
      · intro h
        exact ⟨sx, fun c => -(F c), fun p hp q hq => ⟨(hsx' j hj' p hp q hq).1, (hsx' j hj' p hp q hq).2.1⟩, hgr, h⟩
  refine ⟨?_, ?_⟩
  · intro j hj
    obtain ⟨E, g1, -, g3⟩ := hfield j hj
    obtain ⟨W, hW⟩ := energy_exists (eps := eps) (vol := sh.vol) (dt := cfg.dt) g1.gradient (hbody j (hLs j hj))
    exact ⟨W, (g3 W).2 hW, fun W' h' => energy_unique g1.gradient (fun b hb => (hbody j (hLs j hj) b hb).1) ((g3 W').1 h') hW⟩
  · have hchL : ((if init.isSome then [i0] else []) ++ is).IsChain
        (LeapStep (le_refl g) dom qom (fun _ f q => (f[q.cell.toNat]?).map (fun e => -e)) cfg sl (N + 1)) := by
      split
      · exact hch
      · exact hch.tail
    have key : ∀ Ls : List (Ideal K V (Part K g ρ) (τ × Vec K g)), (∀ j ∈ Ls, j ∈ (if init.isSome then [i0] else []) ++ is) →
        Ls.IsChain (LeapStep (le_refl g) dom qom (fun _ f q => (f[q.cell.toNat]?).map (fun e => -e)) cfg sl (N + 1)) →
        Ls.IsChain (fun i j => (∀ p ∈ i.pops, qom p.name * p.mass = p.charge) →
          Calm cfg sl i j → ∀ W, EnergyOf eps D sh.vol qom cfg i W ↔ EnergyOf eps D sh.vol qom cfg j W) := by
      intro Ls
      induction Ls with
      | nil => intro _ _; exact .nil
      | cons a Ls ih =>
        intro hF hL
        cases Ls with
        | nil => simp
        | cons a2 Ls =>
          rw [List.isChain_cons_cons] at hL ⊢
          refine ⟨?_, ih (fun j hj => hF j (by simp [hj])) hL.2⟩
          intro hqm hcalm
          have ha := hF a (by simp)
          have ha2 := hF a2 (by simp)
          obtain ⟨E, g1, g2, g3⟩ := hfield a ha
          obtain ⟨E', g1', -, g3'⟩ := hfield a2 ha2
          obtain ⟨-, -, -, m4⟩ := hL.1
          have hmv : List.Forall₂ (fun b b' => Body.Moves cfg.dt E b b' ∧ b'.c = b.c)
              (bodies cfg.A.weight (cfg.factor.getD 1) qom sx a.pops) (bodies cfg.A.weight (cfg.factor.getD 1) qom sx a2.pops) := by
            have hpq : ∀ pop ∈ a.pops, ∀ q ∈ pop.st.items, ((cfg.fieldOf a.phi)[q.cell.toNat]?).map (fun e => -e) = some (E (sx q)) := g2
            unfold Calm at hcalm
            clear g1 g1' g2 g3 g3'
            generalize a.pops = l at m4 hpq hcalm
            generalize a2.pops = l' at m4 hcalm
            unfold bodies
            induction m4 with
            | nil => exact .nil
            | @cons p p' ps ps' hpp _ ih2 =>
              rw [List.forall₂_cons] at hcalm
              obtain ⟨⟨hmade, hcell⟩, hcalm⟩ := hcalm
              obtain ⟨e1, e2, e3, e4, e5⟩ := hpp
              rw [List.flatMap_cons, List.flatMap_cons]
              refine List.rel_append ?_ (ih2 (fun pop hp => hpq pop (by simp [hp])) hcalm)
              rw [e2]
              by_cases hq0 : p.charge = 0
              · rw [if_pos hq0, if_pos hq0]
                exact .nil
              rw [if_neg hq0, if_neg hq0]
              rw [hmade, if_neg hq0, List.map_nil, List.append_nil] at e5
              have hlen : p'.st.items.length = p.st.items.length := hcell.length_eq.symm
              have hflt := congrArg List.length e5
              rw [List.length_map, hlen, ← List.length_map (f := fun q => leap cfg.dt (qom p.name)
                ((fun _ (f : List (Vec K g)) (q : Part K g ρ) => (f[q.cell.toNat]?).map (fun e => -e)) p.name (cfg.fieldOf a.phi) q) (kin q))] at hflt
              rw [List.filter_eq_self.2 (List.length_filter_eq_length_iff.1 hflt.symm)] at e5
              have hpq' := hpq p (by simp)
              rw [e1, e3]
              clear hflt hlen hpq ih2
              generalize p.st.items = xs at hcell e5 hpq'
              generalize p'.st.items = ys at hcell e5
              induction hcell with
              | nil => exact .nil
              | @cons q q' xs ys hc0 _ ih3 =>
                simp only [List.map_cons, List.cons.injEq] at e5
                simp only [List.map_cons]
                refine .cons ?_ (ih3 (fun q hq => hpq' q (by simp [hq])) e5.2)
                have hk := e5.1
                rw [hpq' q (by simp)] at hk
                simp only [kin, leap, Option.getD_some, Prod.mk.injEq] at hk
                obtain ⟨k1, k2, k3⟩ := hk
                have hsxe : sx q' = sx q := by
                  simp only [sx, hc0]
                refine ⟨⟨?_, ?_, rfl, ?_, ?_⟩, hsxe⟩
                · dsimp only
                  rw [hwt q' q k3]
                · dsimp only
                  rw [hwt q' q k3]
                · exact k2
                · dsimp only
                  rw [k1, k2]
          have hq : ∀ b ∈ bodies cfg.A.weight (cfg.factor.getD 1) qom sx a.pops, b.qom * b.m = b.q := by
            intro b hb
            obtain ⟨pop, hp, hb⟩ := List.mem_flatMap.1 hb
            split at hb
            · cases hb
            · obtain ⟨q, hq, rfl⟩ := List.mem_map.1 hb
              dsimp only
              rw [← hqm pop hp]
              ring
          obtain ⟨W, hW⟩ := energy_exists (eps := eps) (vol := sh.vol) (dt := cfg.dt) g1.gradient (hbody a (hLs a ha))
          obtain ⟨W', hW'⟩ := energy_exists (eps := eps) (vol := sh.vol) (dt := cfg.dt) g1'.gradient (hbody a2 (hLs a2 ha2))
          have hWW := C104_step g1 g1' (hbody a (hLs a ha)) (hbody a2 (hLs a2 ha2)) hq hmv hW hW'
          subst hWW
          intro V
          rw [g3, g3']
          constructor
          · intro h
            rw [energy_unique g1.gradient (fun b hb => (hbody a (hLs a ha) b hb).1) h hW]
            exact hW'
          · intro h
            rw [energy_unique g1'.gradient (fun b hb => (hbody a2 (hLs a2 ha2) b hb).1) h hW']
            exact hW
    exact key _ (fun j hj => hj) hchL

end

/-! ### Two particles on two triangles -/

theorem calm_of {σ φ : Type} {cfg : Cfg K V (Part K g ρ) σ φ} {sl : Nat} {i j : Ideal K V (Part K g ρ) σ}
    (hs : ∀ name, i.made cfg sl name = [])
    (h : i.pops.map (fun p => p.st.items.map (·.cell)) = j.pops.map (fun p => p.st.items.map (·.cell))) : Calm cfg sl i j := by
  have inner : ∀ xs ys : List (Part K g ρ), xs.map (·.cell) = ys.map (·.cell) → List.Forall₂ (fun q q' => q'.cell = q.cell) xs ys := by
    intro xs ys
    induction xs generalizing ys with
    | nil => intro h; cases ys with
      | nil => exact .nil
      | cons => simp at h
    | cons x xs ih => intro h; cases ys with
      | nil => simp at h
      | cons y ys =>
        simp only [List.map_cons, List.cons.injEq] at h
        exact .cons h.1.symm (ih ys h.2)
  unfold Calm
  generalize i.pops = l at h
  generalize j.pops = l' at h
  induction l generalizing l' with
  | nil => cases l' with
    | nil => exact .nil
    | cons => simp at h
  | cons p l ih => cases l' with
    | nil => simp at h
    | cons p' l' =>
      simp only [List.map_cons, List.cons.injEq] at h
      exact .cons ⟨hs _, inner _ _ h.1⟩ (ih l' h.2)

/-- Two particles, one in each triangle. -/
def calmInit : List (String × List KitePart) :=
  [("e", [kitePart 1 (-1/2) (1/4) (-1/4) 1, kitePart 1 (1/2) (1/2) (-1/4) 0])]

abbrev calmRun (n : Nat) := Ideal.run kiteCfg 2 4 (onCells (kite false)) (some calmInit) [0, 0, 0, 0] n kiteIdeal

/-- They move, and the potential changes. -/
example : kiteView (calmRun 2) = some
    [([(1, -1/2, 1), (1, 1/2, 0)], [0, 1, 1, 3/8]), ([(1, -19/32, 1), (9/8, 1/2, 0)], [0, 1, 1, 45/128]),
      ([(7/8, -333/512, 1), (9/8, 5/8, 0)], [0, 1, 1, 691/2048])] := by decide +kernel

/-- The three states have the same energy. -/
example : ∃ i0 i1 i2 W, calmRun 2 = .ok (i0, [i1, i2]) ∧ ∀ j ∈ [i0, i1, i2],
    EnergyOf 1 (kite false) (kiteShape false).vol (fun _ => -1) kiteCfg j W := by
  have hv : (calmRun 2).toOption.map (fun r => (r.1 :: r.2).map (fun i => i.pops.map (fun p => (p.mass, p.charge, p.st.items.map (·.cell))))) =
      some [[(1, -1, [1, 0])], [(1, -1, [1, 0])], [(1, -1, [1, 0])]] := by decide +kernel
  cases hr : calmRun 2 with
  | error e => rw [hr] at hv; simp [Except.toOption] at hv
  | ok r =>
    obtain ⟨i0, is⟩ := r
    rw [hr] at hv
    simp only [Except.toOption, Option.map_some, Option.some.injEq, List.map_cons] at hv
    rcases is with _ | ⟨i1, _ | ⟨i2, _ | ⟨i3, is⟩⟩⟩
    · simp at hv
    · simp at hv
    · simp only [List.map_cons, List.map_nil, List.cons.injEq, and_true] at hv
      obtain ⟨hv0, hv1, hv2⟩ := hv
      have hcells : ∀ i : Ideal ℚ ℚ KitePart (Unit × Vec ℚ 2),
          i.pops.map (fun p => (p.mass, p.charge, p.st.items.map (·.cell))) = [(1, -1, [1, 0])] →
          i.pops.map (fun p => p.st.items.map (·.cell)) = [[1, 0]] ∧ ∀ p ∈ i.pops, (fun _ : String => (-1 : ℚ)) p.name * p.mass = p.charge := by
        intro i h
        constructor
        · have := congrArg (List.map (fun z => z.2.2)) h
          rw [List.map_map] at this
          exact this
        · intro p hp
          have := List.mem_map_of_mem (f := fun p : Pop ℚ ℚ KitePart => (p.mass, p.charge, p.st.items.map (·.cell))) hp
          rw [h] at this
          simp only [List.mem_singleton, Prod.mk.injEq] at this
          rw [this.1, this.2.1]
          norm_num
      obtain ⟨M, s, e, hs, key⟩ := C104_run (τ := Unit) (V := ℚ) (ρ := Nat) (eps := (1 : ℚ)) kite_triangulation kite_convex 0
        (pmarker := fun F => if F = 1 then 0 else 1) (by decide) one_pos (kite_meshed false) (kite_linked false) (dd := kiteBCs) rfl rfl
      have hM : kiteMesh = M := by unfold kiteMesh; rw [e]; rfl
      have hs' : s = kiteSolver := by
        have : createOn 1 (kite false) (kiteShape false) 3 kiteMarks kiteBCs = .ok kiteSolver := rfl
        rw [hs] at this
        cases this
        rfl
      subst hs'
      obtain ⟨k1, k2⟩ := key (bc := fun _ => kiteSink) (fun _ => kite_sink M (kite_interior e)) (maxCross := 10) (qom := fun _ => -1)
        (cfg := kiteCfg) (by rw [← hM]; rfl) (fun _ _ _ => rfl) (by simp [kiteCfg]) kite_plasma kite_goodCfg 2 (init := some calmInit) (by
          intro gs hgs a ha q hq
          cases hgs
          simp only [calmInit, List.mem_singleton] at ha
          subst ha
          have hull : ∀ (c : DSimplex ℚ) (x : Vec ℚ 2) (w : Fin 3 → ℚ), (∀ i, 0 ≤ w i) ∧ ∑ i, w i = 1 ∧
              (∀ e, x e = ∑ i, w i * corner (kite false) c i e) → InHull (corner (kite false) c) x := fun c x w h => ⟨w, h⟩
          simp only [List.mem_cons, List.not_mem_nil, or_false] at hq
          rcases hq with rfl | rfl
          · exact ⟨⟨(kiteCells false)[1], by simp [kite], rfl, hull _ _ ![1 / 4, 1 / 4, 1 / 2] (by decide +kernel)⟩, rfl⟩
          · exact ⟨⟨(kiteCells false)[0], by simp [kite], rfl, hull _ _ ![1 / 4, 1 / 2, 1 / 4] (by decide +kernel)⟩, rfl⟩)
        (kite_fresh 2) (by simp [kiteIdeal]) (by simp [kiteState]) hr
      simp only [Option.isSome_some, if_true, List.singleton_append, List.isChain_cons_cons, List.isChain_singleton, and_true] at k1 k2
      obtain ⟨W, hW, -⟩ := k1 i0 (by simp)
      have hmade : ∀ (i : Ideal ℚ ℚ KitePart (Unit × Vec ℚ 2)) name, i.made kiteCfg 2 name = [] := by
        intro i name
        unfold Ideal.made
        split
        · rfl
        · simp [kiteCfg, created]
      have c1 := k2.1 (hcells i0 hv0).2 (calm_of (hmade i0) ((hcells i0 hv0).1.trans (hcells i1 hv1).1.symm)) W
      have c2 := k2.2 (hcells i1 hv1).2 (calm_of (hmade i1) ((hcells i1 hv1).1.trans (hcells i2 hv2).1.symm)) W
      refine ⟨i0, i1, i2, W, rfl, fun j hj => ?_⟩
      simp only [List.mem_cons, List.not_mem_nil, or_false] at hj
      rcases hj with rfl | rfl | rfl
      · exact hW
      · exact c1.1 hW
      · exact c2.1 (c1.1 hW)
    · simp at hv

end Dt
