import Verif.Spec.Shells
import Verif.Props.PoissonLoop
import Verif.Props.RectMesh

/-!
# The spherical example (C93)
-/

set_option linter.unusedSectionVars false

namespace Dt
open Spec Poisson TimeLoop
variable {K V : Type} [Field K] [LinearOrder K] [IsStrictOrderedRing K] {τ ρ : Type}

section
variable {x : Nat → K} {N : Nat} {eps : K} {co : Coord} {v0 : Val K} {vN : K}

theorem grid_up (hx : ∀ c < N, x c < x (c + 1)) {i j : Nat} (h : i ≤ j) (hj : j ≤ N) : x i ≤ x j := by
  induction j with
  | zero => rw [Nat.le_zero.1 h]
  | succ j ih =>
    rcases Nat.lt_or_ge i (j + 1) with h1 | h1
    · exact (ih (by omega) (by omega)).trans (hx j (by omega)).le
    · rw [show i = j + 1 by omega]

theorem area_pos (hg : Grid co x N) {c : Nat} (hc : c < N) : 0 < area co (x c) (x (c + 1)) := by
  cases co with
  | cartesian => exact one_pos
  | spherical =>
    have h0 : 0 ≤ x c := (hg.nonneg rfl).trans (grid_up hg.lt (Nat.zero_le c) hc.le)
    have h1 := hg.lt c hc
    have h2 : 0 < x (c + 1) := by linarith
    show 0 < (x c * x c + x c * x (c + 1) + x (c + 1) * x (c + 1)) / 3
    have := mul_nonneg h0 h0
    have := mul_nonneg h0 h2.le
    have := mul_pos h2 h2
    linarith

/-- The shares of a charge at the vertices up to that of the cell `c`. -/
theorem below_share (hx : ∀ c < N, x c < x (c + 1)) {q : K × K × Nat} (hq : Located x N q) {c : Nat} (hc : c < N) :
    ∑ i ∈ Finset.range (c + 1), lam x q.2.2 q.2.1 i = below (x c) (x (c + 1)) q.2.1 := by
  obtain ⟨w, y, e⟩ := q
  obtain ⟨he, h1, h2⟩ := hq
  simp only at he h1 h2 ⊢
  have hxc := hx c hc
  have hxe := hx e he
  unfold below
  rcases lt_trichotomy e c with h | rfl | h
  · have hy : y ≤ x c := h2.trans (grid_up hx (by omega) hc.le)
    rw [if_pos hy, lam_below hxe y (by omega), if_pos h]
  · have hs : ∑ i ∈ Finset.range (e + 1), lam x e y i = (x (e + 1) - y) / (x (e + 1) - x e) := by
      rw [Finset.sum_range_succ, Finset.sum_eq_zero, lam_eq]
      · simp
      · intro i hi
        have := Finset.mem_range.1 hi
        rw [lam_eq, if_neg (by omega), if_neg (by omega)]
        simp
    rw [hs]
    have hne : x (e + 1) - x e ≠ 0 := by linarith [hxe] |> fun h : 0 < x (e + 1) - x e => h.ne'
    split
    · have : y = x e := le_antisymm (by assumption) h1
      rw [this, div_self hne]
    · split
      · have : y = x (e + 1) := le_antisymm h2 (by assumption)
        rw [this, sub_self, zero_div]
      · rfl
  · have hy : x (c + 1) ≤ y := (grid_up hx (by omega) he.le).trans h1
    rw [if_neg (by intro h; linarith), if_pos hy, lam_below hxe y (by omega), if_neg (by omega)]

/-- C93 (uniqueness).  The specification determines the field in every cell. -/
theorem C93_field_unique (he : 0 < eps) (hg : Grid co x N) {charges : List (K × K)} {F F' : Nat → K}
    (h : IsField eps co x N v0 vN charges F) (h' : IsField eps co x N v0 vN charges F') : ∀ c < N, F c = F' c := by
  obtain ⟨A, h1, h2, h3⟩ := h
  obtain ⟨A', h1', h2', h3'⟩ := h'
  have hk : ∀ c < N, F c = F' c + (A - A') / (eps * area co (x c) (x (c + 1))) := by
    intro c hc
    have hp := mul_pos he (area_pos hg hc)
    have e1 := h1 c hc
    have e2 := h1' c hc
    unfold flux at e1 e2
    rw [← mul_assoc] at e1 e2
    have : eps * area co (x c) (x (c + 1)) * (F c - F' c) = A - A' := by linear_combination e1 - e2
    rw [← this, mul_div_cancel_left₀ _ hp.ne']
    ring
  have hA : A = A' := by
    cases v0 with
    | unset => rw [h2 rfl, h2' rfl]
    | num v =>
      have e1 := h3 v rfl
      have e2 := h3' v rfl
      have hs : ∑ c ∈ Finset.range N, (x (c + 1) - x c) * F c = ∑ c ∈ Finset.range N, (x (c + 1) - x c) * F' c +
          (A - A') * ∑ c ∈ Finset.range N, (x (c + 1) - x c) / (eps * area co (x c) (x (c + 1))) := by
        rw [Finset.mul_sum, ← Finset.sum_add_distrib]
        refine Finset.sum_congr rfl fun c hc => ?_
        rw [hk c (Finset.mem_range.1 hc)]
        ring
      rw [e1, e2] at hs
      have hpos : 0 < ∑ c ∈ Finset.range N, (x (c + 1) - x c) / (eps * area co (x c) (x (c + 1))) := by
        refine Finset.sum_pos (fun c hc => ?_) ⟨0, Finset.mem_range.2 hg.pos⟩
        have hc := Finset.mem_range.1 hc
        exact div_pos (by linarith [hg.lt c hc]) (mul_pos he (area_pos hg hc))
      have : (A - A') * ∑ c ∈ Finset.range N, (x (c + 1) - x c) / (eps * area co (x c) (x (c + 1))) = 0 := by linarith
      rcases mul_eq_zero.1 this with h | h
      · linarith
      · exact absurd h hpos.ne'
  intro c hc
  rw [hk c hc, hA]
  simp

/-- From the theorems on the solver. -/
theorem isField_of (hg : Grid co x N) {qs : List (K × K × Nat)} (hl : ∀ q ∈ qs, Located x N q) {phi ne : List K}
    (h : Electrostatic eps co x N v0 vN (fun i => (qs.map (fun q => q.1 * lam x q.2.2 q.2.1 i)).sum) phi ne) :
    IsField eps co x N v0 vN (qs.map (fun q => (q.1, q.2.1))) (eField ne) := by
  have hsum : ∀ c < N, ∑ i ∈ Finset.range (c + 1), (qs.map (fun q => q.1 * lam x q.2.2 q.2.1 i)).sum =
      ((qs.map (fun q => (q.1, q.2.1))).map (fun q => q.1 * below (x c) (x (c + 1)) q.2)).sum := by
    intro c hc
    rw [sum_swap, List.map_map]
    congr 1
    refine List.map_congr_left fun q hq => ?_
    rw [← Finset.mul_sum, below_share hg.lt (hl q hq) hc]
    rfl
  have h00 : 0 < N := hg.pos
  refine ⟨flux eps co x (eField ne) 0 - (qs.map (fun q => q.1 * lam x q.2.2 q.2.1 0)).sum, ?_, ?_, ?_⟩
  · intro c hc
    have h1 := h.gauss 0 c (Nat.zero_le _) hc
    rw [← hsum c hc]
    have h2 : ∑ i ∈ Finset.range (c + 1), (qs.map (fun q => q.1 * lam x q.2.2 q.2.1 i)).sum =
        (qs.map (fun q => q.1 * lam x q.2.2 q.2.1 0)).sum +
          ∑ i ∈ Finset.Ioc 0 c, (qs.map (fun q => q.1 * lam x q.2.2 q.2.1 i)).sum := by
      have : Finset.range (c + 1) = insert 0 (Finset.Ioc 0 c) := by
        ext i
        simp only [Finset.mem_range, Finset.mem_insert, Finset.mem_Ioc]
        omega
      rw [this, Finset.sum_insert (by simp)]
    rw [h2]
    linear_combination h1
  · intro hu
    have := h.enclosed hu 0 h00
    rw [this]
    simp
  · intro v hv
    have e0 := h.low v hv
    have eN := h.high
    have tel : ∀ n ≤ N, ∑ c ∈ Finset.range n, (x (c + 1) - x c) * eField ne c = phi.getD 0 0 - phi.getD n 0 := by
      intro n
      induction n with
      | zero => intro _; simp
      | succ n ih =>
        intro hn
        rw [Finset.sum_range_succ, ih (by omega)]
        obtain ⟨a, b, e, ha, hb, he, hab⟩ := h.gradient.2 n (by omega)
        have : eField ne n = -e := by simp [eField, List.getD_eq_getElem?_getD, he]
        rw [this]
        simp only [List.getD_eq_getElem?_getD, ha, hb, Option.getD_some]
        linear_combination -hab
    rw [tel N (le_refl _)]
    simp [List.getD_eq_getElem?_getD, e0, eN]

end

/-- The particles whose cell index is that of a cell that contains them. -/
def inLine (x : Nat → K) (N : Nat) (q : Part K 1 ρ) : Bool :=
  decide (0 ≤ q.cell ∧ q.cell < N ∧ x q.cell.toNat ≤ q.x 0 ∧ q.x 0 ≤ x (q.cell.toNat + 1))

theorem inLine_of {x : Nat → K} {N : Nat} {marker : Int → Int} (hM : (lineMesh x N marker).Conforming) {q : Part K 1 ρ}
    (h : Present (le_refl 1) (lineMesh x N marker) q) : inLine x N q = true := by
  obtain ⟨c, hc, hb⟩ := h.1.get hM
  obtain ⟨i, hi, hiN, rfl⟩ := lineMesh_cell hc
  have hb := (lineCell_has _).1 hb
  refine decide_eq_true ⟨by omega, by omega, ?_⟩
  rw [show q.cell.toNat = i by omega]
  exact hb

/-- The parts of a simulation on an interval mesh: the cell index is that of the record, densities with linear
elements, the solver `s`, and the gradient of the potential. -/
structure Spec.Electro {σ : Type} (cfg : Cfg K V (Part K 1 ρ) σ (List K)) (x : Nat → K) (N : Nat) (fmarker : Nat → Int)
    (s : Solver K) (d : Nat → Nat) (C : Nat) : Prop where
  cell : cfg.A.cell = fun q => q.cell.toNat
  space : cfg.SD = lineSpace x cfg.A.cell (fun q => q.x 0)
  bc : cfg.bc = applyVec fmarker s.bcs
  solve : ∀ b : List K, b.length = N + 1 → Solves N s.A b (cfg.solve b)
  field : cfg.fieldOf = negE x N
  ncell : cfg.ncell = N
  cells : CellField cfg.SC d N C

theorem Spec.Electro.onLine {σ : Type} {cfg : Cfg K V (Part K 1 ρ) σ (List K)} {x : Nat → K} {N : Nat} {fmarker : Nat → Int}
    {s : Solver K} {d : Nat → Nat} {C : Nat} (h : Electro cfg x N fmarker s d C) :
    OnLine cfg x N fmarker s (fun q => q.x 0) id (inLine x N) := by
  refine ⟨h.space, h.bc, h.solve, by rw [h.field]; rfl, fun p hp q => ?_⟩
  obtain ⟨h1, h2, h3, h4⟩ := of_decide_eq_true hp
  rw [h.cell]
  exact ⟨by show p.cell.toNat < N; omega, h3, h4⟩

theorem Spec.Electro.goodMesh {σ : Type} {cfg : Cfg K V (Part K 1 ρ) σ (List K)} {x : Nat → K} {N : Nat} {fmarker : Nat → Int}
    {s : Solver K} {d : Nat → Nat} {C : Nat} (h : Electro cfg x N fmarker s d C) :
    GoodMesh cfg (inLine x N) d (N + 1) C := by
  refine ⟨fun p hp => ?_, fun p hp => ?_, by rw [h.ncell]; exact h.cells⟩
  · obtain ⟨h1, h2, -⟩ := of_decide_eq_true hp
    refine ⟨?_, ?_, ?_⟩
    · intro i hi
      rw [h.space, h.cell] at hi
      simp only [lineSpace, List.mem_cons, List.not_mem_nil, or_false] at hi
      omega
    · rw [h.space]; simp [lineSpace]
    · rw [h.space]; rfl
  · obtain ⟨h1, h2, -⟩ := of_decide_eq_true hp
    rw [h.cell, h.ncell]
    show p.cell.toNat < N
    omega

theorem bounces_walled {a b : K} (hab : a ≤ b) {L : Bool} {k k' : Vec K 1 × Vec K 1 × ρ} {lost : Bool}
    (h : Bounces a b L false k k' lost) :
    k' = (if L then folded a k else k) ∧ lost = !decide (a ≤ k'.1 0 ∧ k'.1 0 ≤ b) := by
  cases L with
  | true =>
    obtain ⟨h1, h2⟩ := bounces_folded hab h
    refine ⟨h1, ?_⟩
    have : a ≤ (folded a k).1 0 := by
      unfold folded
      split
      · show a ≤ 2 * a - k.1 0
        linarith
      · linarith
    rw [h2, h1]
    simp [this]
  | false =>
    cases h with
    | stays ha hb => exact ⟨rfl, by simp [ha, hb]⟩
    | leftMirror hL => cases hL
    | leftHole _ ha => exact ⟨rfl, by simp [not_le.2 ha]⟩
    | rightMirror hR => cases hR
    | rightHole _ hb => exact ⟨rfl, by simp [not_le.2 hb]⟩

section
variable {x : Nat → K} {N : Nat} {marker : Int → Int} {eps : K} {co : Coord} {v0 : Val K} {vN : K} {L : String → Bool}

theorem chargesOf_eq {σ : Type} {cfg : Cfg K V (Part K 1 ρ) σ (List K)} (pops : List (Pop K V (Part K 1 ρ))) :
    chargesOf cfg.A.weight (cfg.factor.getD 1) pops =
      (pointCharges cfg (fun q => q.x 0) pops).map (fun q => (q.1, q.2.1)) := by
  unfold chargesOf pointCharges
  rw [List.map_flatMap]
  simp only [List.map_map]
  rfl

/-- The core: movers that leap and bounce, in the field of the solver. -/
theorem field_run (hM : (lineMesh x N marker).Conforming)
    {bc : String → Int → τ → BCall K 1 1 ρ → Except Err (τ × Part K 1 ρ)} (hcell : ∀ sn, KeepsCell (bc sn))
    {maxCross : Nat} {qom : String → K} {locate : K → Nat} (hloc : Locates x N locate)
    {cfg : Cfg K V (Part K 1 ρ) (τ × Vec K 1) (List K)}
    (hmove : cfg.move = pyMove (le_refl 1) (lineMesh x N marker) bc maxCross cfg.dt qom
      (fun _ f q => some (fun _ => -(f.getD (locate (q.x 0)) 0))))
    (hpart : ∀ sn f time st q st' q' evs, Present (le_refl 1) (lineMesh x N marker) q →
      moveCharged (le_refl 1) (lineMesh x N marker) .charged (bc sn) maxCross time cfg.dt (qom sn * cfg.dt) false
        (fun q => some (fun _ => -(List.getD f (locate (q.x 0)) 0))) st q = .ok (st', q', evs) →
      Bounces (x 0) (x N) (L sn) false (leap cfg.dt (qom sn) (some (fun _ => -(List.getD f (locate (q.x 0)) 0))) (kin q)) (kin q') q'.del)
    (hsrc : SourcesPresent (le_refl 1) (lineMesh x N marker) cfg.sources)
    {fmarker : Nat → Int} {s : Solver K} {d : Nat → Nat} {C sl : Nat} (hel : Electro cfg x N fmarker s d C)
    (hc : GoodCfg cfg) {z : Species.HRow K} (n : Nat) {init : Option (List (String × List (Part K 1 ρ)))}
    (hinit : InitPresent (le_refl 1) (lineMesh x N marker) init)
    {st : State K V (Part K 1 ρ) (τ × Vec K 1) (List K)} {i : Ideal K V (Part K 1 ρ) (τ × Vec K 1)} {b : List K}
    (hf : Fresh sl (N + 1) C n z st i b) (hn : (i.pops.map (·.name)).Nodup)
    (hnone : st.writer = none → cfg.partEvery = none)
    {lo hi : Int} {dd : List (String × Int × Val K)}
    (he : 0 < eps) (hg : Grid co x N) (hmk : Marks fmarker N lo hi) (hd : Given co dd lo hi v0 vN)
    (hs : create eps co x N fmarker dd = .ok s)
    {i0 : Ideal K V (Part K 1 ρ) (τ × Vec K 1)} {is : List (Ideal K V (Part K 1 ρ) (τ × Vec K 1))}
    (hr : Ideal.run cfg sl (N + 1) (inLine x N) init b n i = .ok (i0, is)) :
    (i0 :: is).IsChain (FieldStep eps co x N v0 vN L qom locate cfg sl) ∧
    (∀ j ∈ i0 :: is, ∀ pop ∈ j.pops, ∀ q ∈ pop.st.items, locate (q.x 0) < N ∧ x (locate (q.x 0)) ≤ q.x 0 ∧
      q.x 0 ≤ x (locate (q.x 0) + 1)) ∧
    ∃ st', run cfg init n st = .ok st' ∧ Outcome cfg d C init.isSome b st st' i0 is := by
  have hab : x 0 ≤ x N := grid_up hg.lt (Nat.zero_le _) (le_refl _)
  have hall := (C73_in_its_cell hmove hcell hsrc hc hel.goodMesh n hinit hf hnone hr).1
  obtain ⟨hch, st', e, ho⟩ := motion_run
    (motion := fun sn f q => if L sn then folded (x 0) (leap cfg.dt (qom sn) (some (fun _ => -(List.getD f (locate (q.x 0)) 0))) (kin q))
      else leap cfg.dt (qom sn) (some (fun _ => -(List.getD f (locate (q.x 0)) 0))) (kin q))
    (keep := fun y => decide (x 0 ≤ y 0 ∧ y 0 ≤ x N))
    (fun sn f time st q st' q' evs hq em => bounces_walled hab (hpart sn f time st q st' q' evs hq em))
    hcell hmove hsrc hc hel.goodMesh n hinit hf hn hnone hr
  obtain ⟨st2, e2, -, hE⟩ := C92_gauss hc hel.goodMesh n init hf hnone he hg hmk hd hs hel.onLine hr
  -- a field for each state
  have hfield : ∀ j ∈ i0 :: is, (∃ F, IsField eps co x N v0 vN (chargesOf cfg.A.weight (cfg.factor.getD 1) j.pops) F ∧
      ((∀ pop ∈ j.pops, pop.st.items = []) ∨ ∀ c, F c = -((cfg.fieldOf j.phi).getD c 0))) := by
    have one : ∀ j ∈ (if init.isSome then [i0] else []) ++ is,
        ∃ F, IsField eps co x N v0 vN (chargesOf cfg.A.weight (cfg.factor.getD 1) j.pops) F ∧
          ((∀ pop ∈ j.pops, pop.st.items = []) ∨ ∀ c, F c = -((cfg.fieldOf j.phi).getD c 0)) := by
      intro j hj
      obtain ⟨h1, h2, -, -⟩ := hE j hj
      refine ⟨eField (negE x N j.phi), ?_, .inr fun c => by rw [hel.field]; rfl⟩
      rw [chargesOf_eq]
      exact isField_of hg (points_located hel.onLine ((run_phi hr).2 j hj).2) h2
    intro j hj
    rcases List.mem_cons.1 hj with rfl | hj
    · cases hi : init with
      | some gs => exact one _ (by rw [hi]; simp)
      | none =>
        -- no particles
        have hem : ∀ pop ∈ j.pops, pop.st.items = [] := by
          subst hi
          unfold Ideal.run Ideal.start at hr
          simp only at hr
          split at hr
          · cases hr
          · cases hr
            intro pop hp
            rw [hf.empty pop hp]
        have hcs : chargesOf cfg.A.weight (cfg.factor.getD 1) j.pops = [] := by
          unfold chargesOf
          rw [List.flatMap_eq_nil_iff]
          intro pop hp
          rw [hem pop hp]
          rfl
        obtain ⟨s', hs', hpot⟩ := C89_potential he hg hmk hd
        obtain ⟨⟨U, hU, -⟩, h2⟩ := hpot (List.replicate (N + 1) 0) (by simp)
        have := isField_of (qs := []) hg (by simp) (phi := U) (ne := negE x N U) (by
          have := h2 U hU
          convert this using 2
          rw [List.getD_eq_getElem?_getD, List.getElem?_replicate]
          split <;> simp)
        exact ⟨_, by rw [hcs]; exact this, .inl hem⟩
    · exact one j (by simp [hj])
  refine ⟨?_, ?_, st', e, ho⟩
  · clear hall hE
    have key : ∀ Ls : List (Ideal K V (Part K 1 ρ) (τ × Vec K 1)),
        (∀ j ∈ Ls, (∃ F, IsField eps co x N v0 vN (chargesOf cfg.A.weight (cfg.factor.getD 1) j.pops) F ∧
          ((∀ pop ∈ j.pops, pop.st.items = []) ∨ ∀ c, F c = -((cfg.fieldOf j.phi).getD c 0)))) →
        Ls.IsChain (MotionStep (fun sn f q => if L sn then folded (x 0) (leap cfg.dt (qom sn) (some (fun _ => -(List.getD f (locate (q.x 0)) 0))) (kin q))
          else leap cfg.dt (qom sn) (some (fun _ => -(List.getD f (locate (q.x 0)) 0))) (kin q))
          (fun y => decide (x 0 ≤ y 0 ∧ y 0 ≤ x N)) cfg sl (N + 1)) →
        Ls.IsChain (FieldStep eps co x N v0 vN L qom locate cfg sl) := by
      intro Ls
      induction Ls with
      | nil => intro _ _; exact .nil
      | cons a Ls ih =>
        intro hF hL
        cases Ls with
        | nil => simp
        | cons a2 Ls =>
          rw [List.isChain_cons_cons] at hL ⊢
          refine ⟨?_, ih (fun j hj => hF j (by simp [hj])) hL.2⟩
          obtain ⟨F, hF1, hF2⟩ := hF a (by simp)
          obtain ⟨m1, m2, -, m4⟩ := hL.1
          refine ⟨m1, m2, F, hF1, ?_⟩
          have hmem : ∀ (l l' : List (Pop K V (Part K 1 ρ))), (∀ p ∈ l, p ∈ a.pops) → List.Forall₂ (fun s s' => s'.name = s.name ∧ s'.charge = s.charge ∧
              s'.mass = s.mass ∧ s'.index = s.index ∧ s'.st.items.map kin = (if s.charge = 0 then s.st.items.map kin
               else (s.st.items.map (fun q => if L s.name then folded (x 0) (leap cfg.dt (qom s.name) (some (fun _ => -(List.getD (cfg.fieldOf a.phi) (locate (q.x 0)) 0))) (kin q))
          else leap cfg.dt (qom s.name) (some (fun _ => -(List.getD (cfg.fieldOf a.phi) (locate (q.x 0)) 0))) (kin q))).filter (fun k => decide (x 0 ≤ k.1 0 ∧ k.1 0 ≤ x N))) ++
              (a.made cfg sl s.name).map kin) l l' →
              List.Forall₂ (fun s s' => s'.name = s.name ∧ s'.charge = s.charge ∧ s'.mass = s.mass ∧
                s'.index = s.index ∧
                s'.st.items.map kin =
                  (if s.charge = 0 then s.st.items.map kin
                   else ((s.st.items.map kin).map (walledLeap (x 0) (L s.name) cfg.dt (qom s.name) (fun y => F (locate y)))).filter
                    (fun k => decide (x 0 ≤ k.1 0 ∧ k.1 0 ≤ x N))) ++
                  (a.made cfg sl s.name).map kin) l l' := by
            intro l l' hsub hl
            induction hl with
            | nil => exact .nil
            | @cons p p' ps ps' h1 _ ih2 =>
              refine .cons ?_ (ih2 (fun q hq => hsub q (by simp [hq])))
              obtain ⟨e1, e2, e3, e4, e5⟩ := h1
              refine ⟨e1, e2, e3, e4, ?_⟩
              rw [e5]
              congr 2
              rw [List.map_map]
              congr 1
              rcases hF2 with h0 | h0
              · rw [h0 p (hsub p (by simp))]; rfl
              · refine List.map_congr_left fun q _ => ?_
                simp only [Function.comp_apply, walledLeap, h0]
                rfl
          exact hmem _ _ (fun p hp => hp) m4
    exact key _ hfield hch
  · intro j hj pop hp q hq
    have := of_decide_eq_true (inLine_of hM (hall j hj pop hp q hq))
    obtain ⟨h1, h2, h3, h4⟩ := this
    exact hloc _ ((grid_up hg.lt (Nat.zero_le _) (by omega)).trans h3) (h4.trans (grid_up hg.lt (by omega) (le_refl _)))

end

section
open Mark Radial
variable {rmin rmax eps : K} {pw : K → K} {nr : Nat} {v0 : Val K} {vN : K} {L : String → Bool}

/-- C93.  The spherical example, from the choices of the user to the motion of the particles.  A radial mesh
(inner radius not negative, any number of cells, any stretching) with tags for the boundaries of the field and of
the particles, callbacks named after the boundaries of which those for `rmin` reflect or absorb the particles and
those for `rmax` absorb them, the potential given at `rmax`, and given or `'unset'` at `rmin`:

* the solver is made;
* from each state of a simulation to the next, every charged particle makes a leapfrog step in the electric field
  of all particles present, which follows from Gauss's law, is reflected or lost at the walls, and the particles of
  sources are added; nothing else happens to the particles;
* if the number of cells is at most half of the limit of crossings, the program runs to its end, unless a
  species loses all its particles in one step (C14), or a source meets the assertion of C70. -/
theorem C93_sphere (hpw : PowLike pw) (h0 : 0 ≤ rmin) (hrr : rmin < rmax) (hnr : 0 < nr)
    {fd pd : Dict} (hfd : GoodTags fd) (hpd : GoodTags pd) {fa fb pa pb : Int}
    (h1 : ("rmin", fa) ∈ fd) (h2 : ("rmax", fb) ∈ fd) (h3 : ("rmin", pa) ∈ pd) (h4 : ("rmax", pb) ∈ pd)
    {ms : Mark.Marks Nat} (e : createRadial (K := K) nr (some fd) (some pd) = .ok ms)
    {cb : Callbacks (τ × BCall K 1 1 ρ → Except Err (τ × Part K 1 ρ))} {species : List String}
    {fl fr : String → τ × BCall K 1 1 ρ → Except Err (τ × Part K 1 ρ)}
    (hl : ∀ sn ∈ species, Provided cb "rmin" sn (fl sn)) (hr : ∀ sn ∈ species, Provided cb "rmax" sn (fr sn))
    (al : ∀ sn ∈ species, ActsLike (L sn) (fl sn)) (ar : ∀ sn ∈ species, ActsLike false (fr sn))
    (hcell : ∀ name f, cb name = some f → ∀ a st' q', f a = .ok (st', q') → q'.cell = a.2.part.cell)
    (he : 0 < eps) {dd : List (String × Int × Val K)} (hd : Given .spherical dd fa fb v0 vN) :
    ∃ fm pm s, ms = ⟨some fm, some pm⟩ ∧ create eps .spherical (vertex rmin rmax pw nr) nr fm dd = .ok s ∧
      ∀ {maxCross : Nat} {qom : String → K} {locate : K → Nat}, Locates (vertex rmin rmax pw nr) nr locate →
      ∀ {cfg : Cfg K V (Part K 1 ρ) (τ × Vec K 1) (List K)},
        cfg.move = pyMove (le_refl 1) (lineMesh (vertex rmin rmax pw nr) nr (onLine nr pm)) (namedBC cb pd species) maxCross cfg.dt qom
          (fun _ f q => some (fun _ => -(f.getD (locate (q.x 0)) 0))) →
        SourcesPresent (le_refl 1) (lineMesh (vertex rmin rmax pw nr) nr (onLine nr pm)) cfg.sources →
        ∀ {d : Nat → Nat} {C sl : Nat}, Electro cfg (vertex rmin rmax pw nr) nr fm s d C → GoodCfg cfg →
        ∀ {z : Species.HRow K} (n : Nat) {init : Option (List (String × List (Part K 1 ρ)))},
        InitPresent (le_refl 1) (lineMesh (vertex rmin rmax pw nr) nr (onLine nr pm)) init →
        ∀ {st : State K V (Part K 1 ρ) (τ × Vec K 1) (List K)} {i : Ideal K V (Part K 1 ρ) (τ × Vec K 1)} {b : List K},
        Fresh sl (nr + 1) C n z st i b → (i.pops.map (·.name)).Nodup → (st.writer = none → cfg.partEvery = none) →
        (∀ {i0 : Ideal K V (Part K 1 ρ) (τ × Vec K 1)} {is : List (Ideal K V (Part K 1 ρ) (τ × Vec K 1))},
          Ideal.run cfg sl (nr + 1) (inLine (vertex rmin rmax pw nr) nr) init b n i = .ok (i0, is) →
          (i0 :: is).IsChain (FieldStep eps .spherical (vertex rmin rmax pw nr) nr v0 vN L qom locate cfg sl) ∧
          (∀ j ∈ i0 :: is, ∀ pop ∈ j.pops, ∀ q ∈ pop.st.items, locate (q.x 0) < nr ∧
            vertex rmin rmax pw nr (locate (q.x 0)) ≤ q.x 0 ∧ q.x 0 ≤ vertex rmin rmax pw nr (locate (q.x 0) + 1)) ∧
          ∃ st', run cfg init n st = .ok st' ∧ Outcome cfg d C init.isSome b st st' i0 is) ∧
        (2 * nr ≤ maxCross → (∀ pop ∈ i.pops, pop.name ∈ species) → SourcesGood (i.pops.map (·.name)) cfg.sources →
          (∀ gs, init = some gs → ∀ a ∈ gs, a.1 ∈ i.pops.map (·.name)) →
          Ideal.run cfg sl (nr + 1) (inLine (vertex rmin rmax pw nr) nr) init b n i ≠ .error .allLost →
          (∃ st', run cfg init n st = .ok st') ∨ (cfg.sources ≠ [] ∧ run cfg init n st = .error .assertion)) := by
  have g1 := hfd.pos _ h1
  have g2 := hfd.pos _ h2
  have g3 := hpd.pos _ h3
  have g4 := hpd.pos _ h4
  obtain ⟨fm, pm, hc, ht, -, -, -⟩ := C82_radial (K := K) hnr hfd.keys hpd.keys h1 h2 h3 h4 g1.le g2.le g3.le g4.le
  rw [hc] at e
  have hms : ms = ⟨some fm, some pm⟩ := by cases e; rfl
  obtain ⟨v0', vN', vlt, hcf⟩ := C49_radial_mesh hpw hrr hnr
  have hne : fa ≠ fb := by
    intro h
    subst h
    have := (List.inj_on_of_nodup_map hfd.inj) h1 h2 rfl
    simp at this
  have hmk : Spec.Marks fm nr fa fb := C89_marks hfd.keys ht (by simp [unitVertex])
    (by unfold unitVertex; exact div_self (by exact_mod_cast (by omega : nr ≠ 0))) h1 h2 hne g1.ne' g2.ne'
  have hg : Grid .spherical (vertex rmin rmax pw nr) nr := ⟨hnr, vlt, fun _ => by rw [v0']; exact h0⟩
  obtain ⟨s, hs, -⟩ := C89_potential he hg hmk hd
  refine ⟨fm, pm, s, hms, hs, ?_⟩
  intro maxCross qom locate hloc cfg hmove hsrc d C sl hel hgc z n init hinit st i b hf hn hnone
  -- the walls of a species
  have wall : ∀ {cb' : Callbacks (τ × BCall K 1 1 ρ → Except Err (τ × Part K 1 ρ))} {species' : List String} {sn : String}
      {fl' fr' : τ × BCall K 1 1 ρ → Except Err (τ × Part K 1 ρ)}, sn ∈ species' → Provided cb' "rmin" sn fl' →
      Provided cb' "rmax" sn fr' → ActsLike (L sn) fl' → ActsLike false fr' →
      onLine nr pm 0 ≠ 0 ∧ onLine nr pm nr ≠ 0 ∧ WallBC (onLine nr pm) nr (L sn) false (namedBC cb' pd species' sn) := by
    intro cb' species' sn fl' fr' hs' hl' hr' al' ar'
    obtain ⟨pm', hpm', k0, kN, -, -, -, hw⟩ := C83_named_walls (K := K) (fo := some fd) hnr hpd h3 h4 hc hs' hl' hr' al' ar'
    simp only [Option.some.injEq] at hpm'
    subst hpm'
    exact ⟨k0, kN, hw⟩
  have other : ∀ sn : String, sn ∈ [sn] ∧
      Provided (fun name => if name = "default_bc_at_rmin" then some (fun a : τ × BCall K 1 1 ρ => if L sn then bcReflect a.1 a.2 else bcAbsorb a.1 a.2)
        else if name = "default_bc_at_rmax" then some (fun a => bcAbsorb a.1 a.2) else none) "rmin" sn
        (fun a => if L sn then bcReflect a.1 a.2 else bcAbsorb a.1 a.2) ∧
      Provided (fun name => if name = "default_bc_at_rmin" then some (fun a : τ × BCall K 1 1 ρ => if L sn then bcReflect a.1 a.2 else bcAbsorb a.1 a.2)
        else if name = "default_bc_at_rmax" then some (fun a => bcAbsorb a.1 a.2) else none) "rmax" sn
        (fun a => bcAbsorb a.1 a.2) := by
    intro sn
    refine ⟨by simp, .inr (.inl ⟨?_, ?_⟩), .inr (.inl ⟨?_, ?_⟩)⟩
    · dsimp only
      rw [if_neg (by simp [String.ext_iff]), if_neg (by simp [String.ext_iff])]
    · exact if_pos (by decide)
    · dsimp only
      rw [if_neg (by simp [String.ext_iff]), if_neg (by simp [String.ext_iff])]
    · dsimp only
      rw [if_neg (by decide), if_pos (by decide)]
  have hM : (lineMesh (vertex rmin rmax pw nr) nr (onLine nr pm)).Conforming := by
    obtain ⟨a1, a2, a3⟩ := other "H"
    obtain ⟨k0, kN, -⟩ := wall a1 a2 a3 (fun st _ => ⟨st, rfl⟩) (fun st _ => ⟨st, rfl⟩)
    exact hcf _ k0 kN
  refine ⟨?_, ?_⟩
  · intro i0 is hrun
    refine field_run hM (fun sn => namedBC_keepsCell hcell pd species sn) hloc hmove ?_ hsrc hel hgc n hinit hf hn hnone he hg hmk hd hs hrun
    intro sn f time st q st' q' evs hq em
    by_cases hsn : sn ∈ species
    · exact C76_particle hM rfl rfl (wall hsn (hl sn hsn) (hr sn hsn) (al sn hsn) (ar sn hsn)).2.2 hq em
    · -- no callback for this species: it has met no marked facet
      obtain ⟨a1, a2, a3⟩ := other sn
      refine C76_particle hM rfl rfl (wall a1 a2 a3 (fun st _ => ⟨st, rfl⟩) (fun st _ => ⟨st, rfl⟩)).2.2 hq (moveCharged_mono ?_ em)
      intro value st call r er
      exfalso
      unfold namedBC callBC bcDict at er
      simp only [if_neg hsn] at er
      split at er
      · cases er
      · rename_i hh; split at hh <;> cases hh
      · rename_i hh; split at hh <;> cases hh
  · intro hmax hsp hsg hig hlost
    have hspec : ∀ sn ∈ i.pops.map (·.name), sn ∈ species := by
      intro sn hsn
      obtain ⟨pop, hpop, rfl⟩ := List.mem_map.1 hsn
      exact hsp pop hpop
    have key := C68_run hgc hel.goodMesh n init hf hnone
    cases hrun : Ideal.run cfg sl (nr + 1) (inLine (vertex rmin rmax pw nr) nr) init b n i with
    | ok r =>
      rw [hrun] at key
      obtain ⟨_, st', e, _⟩ := key
      exact .inl ⟨st', e⟩
    | error f =>
      rw [hrun] at key
      rcases run_faults hM hmove (fun sn => namedBC_keepsCell hcell pd species sn) hsrc (fun q hq => inLine_of hM hq) n hinit
        (fun sn hsn => (wall (hspec sn hsn) (hl _ (hspec sn hsn)) (hr _ (hspec sn hsn)) (al _ (hspec sn hsn))
          (ar _ (hspec sn hsn))).2.2.good) hf.empty hsg hig hrun with
        rfl | ⟨rfl, hs⟩ | ⟨rfl, sn, fld, side, q, t, hsn, hq, he⟩
      · exact absurd hrun hlost
      · exact .inr ⟨hs, key⟩
      · obtain ⟨r, hok⟩ := C76_no_error hM (v := .charged) rfl rfl (wall (hspec sn hsn) (hl _ (hspec sn hsn)) (hr _ (hspec sn hsn)) (al _ (hspec sn hsn))
          (ar _ (hspec sn hsn))).2.2 hmax t cfg.dt (qom sn * cfg.dt) _ side hq
        rw [hok] at he; cases he

end

/-! ### A sphere of two cells -/

section Demo
open Mark Radial

def ballFd : Dict := [("rmin", 1), ("rmax", 2)]
def ballPd : Dict := [("rmax", 4), ("rmin", 3)]

/-- The markers that `create_mesh` makes. -/
def ballMs : Option (Mark.Marks Nat) := (createRadial (K := ℚ) 2 (some ballFd) (some ballPd)).toOption
def ballFM : Nat → Int := (ballMs.bind Marks.field).getD (fun _ => 0)
def ballPM : Nat → Int := (ballMs.bind Marks.particle).getD (fun _ => 0)

abbrev ballX : Nat → ℚ := vertex 0 2 (fun x => x ^ 1) 2

/-- A point on the vertex between the cells counts to the first. -/
def ballLocate (y : ℚ) : Nat := if y ≤ 1 then 0 else 1

abbrev ballSolver : Solver ℚ := made 1 .spherical ballX 2 ballFM 1 2 .unset 5

/-- The solution of the equations of this mesh. -/
def ballSolve (b : List ℚ) : List ℚ :=
  let u1 := b.getD 2 0 + 3 / 7 * (b.getD 0 0 + b.getD 1 0)
  [u1 + 3 * b.getD 0 0, u1, b.getD 2 0]

/-- Reflection at `rmin`, deletion elsewhere. -/
def ballCB : Callbacks (Unit × BCall ℚ 1 1 Nat → Except Err (Unit × Part ℚ 1 Nat)) := fun s =>
  if s = "default_bc_at_rmin" then some (fun a => bcReflect a.1 a.2)
  else if s = "default_bc" then some (fun a => bcAbsorb a.1 a.2) else none

def ballCfg : Cfg ℚ ℚ SimPart (Unit × Vec ℚ 1) (List ℚ) :=
  { simCfg [simSource] with
    move := pyMove (le_refl 1) (lineMesh ballX 2 (onLine 2 ballPM)) (namedBC ballCB ballPd ["e"]) 4 (1 / 2)
      (fun _ => -1) (fun _ f q => some (fun _ => -(f.getD (ballLocate (q.x 0)) 0)))
    A := ⟨fun q => q.cell.toNat, fun _ => 1 / 4⟩
    SD := lineSpace ballX (fun q => q.cell.toNat) (fun q => q.x 0)
    ncell := 2
    bc := applyVec ballFM ballSolver.bcs
    solve := ballSolve
    fieldOf := negE ballX 2 }

def ballState (n : Nat) : State ℚ ℚ SimPart (Unit × Vec ℚ 1) (List ℚ) :=
  { simState n with
    sps := [⟨"e", SAP.new 2 (demoPart 0 0 0 false), -1, 1, 1, [0, 0, 0], [0, 0]⟩]
    solver := ⟨[0, 0, 0], [0, 0, 0], [0, 0, 0]⟩ }

def ballInit : List (String × List SimPart) :=
  [("e", [demoPart (1 / 2) (-1) 0 false, demoPart (3 / 2) 9 1 false, demoPart (5 / 4) (-1) 1 false])]

abbrev ballRun (n : Nat) : Except Fault (Ideal ℚ ℚ SimPart (Unit × Vec ℚ 1) × List (Ideal ℚ ℚ SimPart (Unit × Vec ℚ 1))) :=
  Ideal.run ballCfg 2 3 (inLine ballX 2) (some ballInit) [0, 0, 0] n simIdeal

theorem ball_tags : GoodTags ballFd ∧ GoodTags ballPd :=
  ⟨⟨by unfold IsDict ballFd; decide, by decide, by decide⟩, ⟨by unfold IsDict ballPd; decide, by decide, by decide⟩⟩

theorem ball_good : GoodCfg ballCfg := by
  obtain ⟨h1, h2, h3, h4, h5⟩ := sim_good [simSource]
  exact ⟨h1, h2, h3, h4, h5⟩

theorem ball_locates : Locates ballX 2 ballLocate := by
  have e0 : ballX 0 = 0 := by decide +kernel
  have e1 : ballX 1 = 1 := by decide +kernel
  have e2 : ballX 2 = 2 := by decide +kernel
  intro y h0 h2
  rw [e0] at h0
  rw [e2] at h2
  unfold ballLocate
  split
  · rename_i h; exact ⟨by decide, by rw [e0]; exact h0, by rw [e1]; exact h⟩
  · rename_i h; exact ⟨by decide, by rw [e1]; exact (not_le.1 h).le, by rw [e2]; exact h2⟩

theorem ball_solves (b : List ℚ) (hb : b.length = 2 + 1) : Solves 2 ballSolver.A b (ballSolve b) := by
  obtain ⟨b0, b1, b2, rfl⟩ := List.length_eq_three.1 hb
  have a : ∀ i ≤ 2, ∀ j ≤ 2, ballSolver.A i j =
      (if i = 0 then (if j = 0 then 1 / 3 else if j = 1 then -1 / 3 else 0)
       else if i = 1 then (if j = 0 then -1 / 3 else if j = 1 then 8 / 3 else -7 / 3)
       else if j = 2 then 1 else 0) := by decide +kernel
  refine ⟨rfl, ?_⟩
  intro i hi
  have hr : Finset.range (2 + 1) = {0, 1, 2} := by decide
  rw [hr, Finset.sum_insert (by decide), Finset.sum_insert (by decide), Finset.sum_singleton,
    a i hi 0 (by decide), a i hi 1 (by decide), a i hi 2 (by decide)]
  interval_cases i <;> simp [ballSolve] <;> ring

theorem ball_electro : Spec.Electro ballCfg ballX 2 ballFM ballSolver (fun k => k) 2 :=
  ⟨rfl, rfl, rfl, ball_solves, rfl, rfl, ⟨fun _ _ => rfl, fun _ _ _ _ h => h, fun _ h => h⟩⟩

theorem ball_fresh (n : Nat) : Fresh 2 3 2 n ⟨0, 0, []⟩ (ballState n) simIdeal [0, 0, 0] := by
  refine ⟨rfl, rfl, rfl, rfl, rfl, ?_, ?_, ?_, ?_, rfl, rfl⟩
  · exact .cons ⟨rfl, rfl, rfl, rfl, ⟨SAP.Reachable.new 2 _ (by decide), SAP.new_sim 2 _ (by decide), rfl⟩,
      rfl, rfl⟩ .nil
  · intro p hp
    simp only [simIdeal, List.mem_singleton] at hp
    rw [hp]
  · exact Or.inr ⟨_, rfl, newWriter_ready 2 2 (by decide) 0, rfl, by simp [Output.newWriter, simIdeal]⟩
  · simp [HistIs, ballState, simState]

theorem ball_init : InitPresent (le_refl 1) (lineMesh ballX 2 (onLine 2 ballPM)) (some ballInit) := by
  intro gs hgs a ha q hq
  cases hgs
  simp only [ballInit, List.mem_singleton] at ha
  subst ha
  simp only [List.mem_cons, List.not_mem_nil, or_false] at hq
  rcases hq with rfl | rfl | rfl <;>
  exact ⟨by unfold InItsCell; decide +kernel, rfl⟩

theorem ball_sources : SourcesPresent (le_refl 1) (lineMesh ballX 2 (onLine 2 ballPM)) ballCfg.sources := by
  intro s hs count time side side' xs e q hq
  simp only [ballCfg, simCfg, List.mem_singleton] at hs
  subst hs
  simp only [simSource, Except.ok.injEq, Prod.mk.injEq] at e
  rw [← e.2] at hq
  simp only [List.mem_singleton] at hq
  subst hq
  exact ⟨by unfold InItsCell; decide +kernel, rfl⟩

/-- Positions and velocities in the states of a simulation. -/
def ballView (r : Except Fault (Ideal ℚ ℚ SimPart (Unit × Vec ℚ 1) × List (Ideal ℚ ℚ SimPart (Unit × Vec ℚ 1)))) :
    Option (List (List (ℚ × ℚ))) :=
  r.toOption.map (fun r => (r.1 :: r.2).map (fun i => i.pops.flatMap (fun p => p.st.items.map
    (fun q => (q.x 0, q.u 0)))))

-- The fast electron is lost in the first step, another reflected in the second, and the source adds one in the third.
example : ballView (ballRun 3) = some [[(1 / 2, -1), (3 / 2, 9), (5 / 4, -1)],
    [(3 / 32, -13 / 16), (363 / 448, -197 / 224)],
    [(767 / 7168, 1439 / 3584), (4129 / 7168, -1679 / 3584)],
    [(71 / 128, 3209 / 3584), (1055 / 1792, 13 / 512), (1 / 4, 1)]] := by decide +kernel

-- C93 applies to this run.
example : ∃ i0 is, ballRun 3 = .ok (i0, is) ∧
    (i0 :: is).IsChain (FieldStep 1 .spherical ballX 2 .unset 5 (fun _ => true) (fun _ => -1) ballLocate ballCfg 2) ∧
    ∃ st', run ballCfg (some ballInit) 3 (ballState 3) = .ok st' := by
  obtain ⟨gf, gp⟩ := ball_tags
  obtain ⟨fm, pm, hc, -⟩ := C82_radial (K := ℚ) (nr := 2) (by decide) gf.keys gp.keys (fa := 1) (fb := 2) (pa := 3) (pb := 4)
    (by decide) (by decide) (by decide) (by decide) (by decide) (by decide) (by decide) (by decide)
  have hf : ballFM = fm := by unfold ballFM ballMs; rw [hc]; rfl
  have hp : ballPM = pm := by unfold ballPM ballMs; rw [hc]; rfl
  obtain ⟨fm', pm', s, hms, hs, key⟩ := C93_sphere (L := fun _ => true) (powLike_nat (K := ℚ) (s := 1) (by decide)) (le_refl 0) (by decide : (0 : ℚ) < 2) (by decide : 0 < 2)
    gf gp (fa := 1) (fb := 2) (pa := 3) (pb := 4) (by decide) (by decide) (by decide) (by decide) hc
    (cb := ballCB) (species := ["e"]) (fl := fun _ a => bcReflect a.1 a.2) (fr := fun _ a => bcAbsorb a.1 a.2)
    (fun sn hsn => by obtain rfl := List.mem_singleton.1 hsn; exact .inr (.inl ⟨rfl, rfl⟩))
    (fun sn hsn => by obtain rfl := List.mem_singleton.1 hsn; exact .inr (.inr ⟨rfl, rfl, rfl⟩))
    (fun _ _ st _ => ⟨st, rfl⟩) (fun _ _ st _ => ⟨st, rfl⟩)
    (by
      intro name f hf a st' q' e
      unfold ballCB at hf
      split at hf
      · cases hf
        dsimp only [bcReflect] at e
        split at e <;> cases e
        rfl
      · split at hf
        · cases hf; cases e; rfl
        · cases hf)
    one_pos demo_open
  cases hms
  subst hf hp
  rw [create_eq demo_open] at hs
  cases hs
  cases hr : ballRun 3 with
  | error f =>
    have h : (ballView (ballRun 3)).isSome = true := by decide +kernel
    rw [hr] at h
    cases h
  | ok r =>
    obtain ⟨i0, is⟩ := r
    obtain ⟨h, -⟩ := key (cfg := ballCfg) ball_locates rfl ball_sources ball_electro ball_good 3 ball_init (ball_fresh 3) (by decide)
      (fun h => by cases h)
    obtain ⟨h1, -, st', h2, -⟩ := h hr
    exact ⟨i0, is, rfl, h1, st', h2⟩

end Demo

end Dt
