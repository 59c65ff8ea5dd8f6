import Verif.Spec.Renumber
import Verif.Props.ReverseMesh
import Verif.Props.Applied

/-!
# The numbering and the position of the mesh do not matter (C132)
-/

set_option linter.unusedSectionVars false

namespace Dt
open Spec Poisson Dt.Topology
open TimeLoop (Cfg)
variable {K V : Type} [Field K] [LinearOrder K] [IsStrictOrderedRing K] {g : Nat} {ρ σ τ φ : Type}

section
variable {T : Rigid K g} {num : Equiv.Perm Nat} {cell back : DSimplex K → DSimplex K} {D D' : DMesh K g} {vol vol' : DSimplex K → K}
  {fixed fixed' : Nat → K → Prop}

theorem pos_comb (T : Rigid K g) {n : Nat} {w : Fin n → K} (hw : ∑ i, w i = 1) (p : Fin n → Vec K g) (x : Vec K g) :
    (∀ e, T.pos x e = ∑ i, w i * T.pos (p i) e) ↔ ∀ e, x e = ∑ i, w i * p i e := by
  have h1 : (∀ e, T.pos x e = ∑ i, w i * T.pos (p i) e) ↔ T.pos x = ∑ i, w i • T.pos (p i) := by
    rw [funext_iff]
    simp only [Finset.sum_apply, Pi.smul_apply, smul_eq_mul]
  have h2 : (∀ e, x e = ∑ i, w i * p i e) ↔ x = ∑ i, w i • p i := by
    rw [funext_iff]
    simp only [Finset.sum_apply, Pi.smul_apply, smul_eq_mul]
  have h3 : ∑ i, w i • T.pos (p i) = T.pos (∑ i, w i • p i) := by
    unfold Rigid.pos
    simp only [smul_add, Finset.sum_add_distrib, ← Finset.sum_smul, hw, one_smul, map_sum, map_smul]
  rw [h1, h2, h3]
  unfold Rigid.pos
  rw [add_left_inj, T.turn.injective.eq_iff]

theorem hull_moved {p p' : Fin (g + 1) → Vec K g} {s : Equiv.Perm (Fin (g + 1))} (hs : ∀ j, p' (s j) = T.pos (p j)) (x : Vec K g) :
    InHull p' (T.pos x) ↔ InHull p x := by
  constructor
  · rintro ⟨w, h0, h1, h2⟩
    have h1' : ∑ i, w (s i) = 1 := by rw [← h1]; exact Equiv.sum_comp s w
    refine ⟨fun j => w (s j), fun j => h0 _, h1', (pos_comb T h1' p x).1 fun e => ?_⟩
    rw [h2 e, ← Equiv.sum_comp s]
    exact Finset.sum_congr rfl fun j _ => by rw [hs]
  · rintro ⟨w, h0, h1, h2⟩
    refine ⟨fun j => w (s.symm j), fun j => h0 _, by rw [← h1]; exact Equiv.sum_comp s.symm w, fun e => ?_⟩
    rw [(pos_comb T h1 p x).2 h2 e, ← Equiv.sum_comp s (fun j => w (s.symm j) * p' j e)]
    exact Finset.sum_congr rfl fun j _ => by rw [hs, Equiv.symm_apply_apply]

theorem Spec.Renumbered.hull (h : Renumbered T num cell back D D' vol vol' fixed fixed') {c : DSimplex K} (hc : c ∈ D.cells) (x : Vec K g) :
    InHull (corner D' (cell c)) (T.pos x) ↔ InHull (corner D c) x := by
  obtain ⟨s, hs⟩ := h.corners c hc
  exact hull_moved (fun j => (hs j).2) x

theorem Spec.Renumbered.value (h : Renumbered T num cell back D D' vol vol' fixed fixed') {c : DSimplex K} (hc : c ∈ D.cells) {v : Nat → K}
    {x : Vec K g} {y : K} (hv : ValueAt D c v x y) : ValueAt D' (cell c) (fun i => v (num.symm i)) (T.pos x) y := by
  obtain ⟨s, hs⟩ := h.corners c hc
  obtain ⟨w, h1, h2, h3⟩ := hv
  refine ⟨fun j => w (s.symm j), by rw [← h1]; exact Equiv.sum_comp s.symm w, fun e => ?_, ?_⟩
  · rw [(pos_comb T h1 (corner D c) x).2 h2 e, ← Equiv.sum_comp s (fun j => w (s.symm j) * corner D' (cell c) j e)]
    exact Finset.sum_congr rfl fun j _ => by rw [(hs j).2, Equiv.symm_apply_apply]
  · rw [h3, ← Equiv.sum_comp s (fun j => w (s.symm j) * v (num.symm (((cell c).verts[j.1]?).getD 0)))]
    exact Finset.sum_congr rfl fun j _ => by rw [(hs j).1, Equiv.symm_apply_apply, Equiv.symm_apply_apply]

theorem dot_sub_right (G a b : Vec K g) : dot G (a - b) = dot G a - dot G b := by
  simp only [dot, Pi.sub_apply, mul_sub, Finset.sum_sub_distrib]

theorem isGrad_iff {D : DMesh K g} {c : DSimplex K} {u : Nat → K} {G : Vec K g} :
    IsGrad D c u G ↔ ∀ j k : Fin (g + 1), dot G (corner D c j) - dot G (corner D c k) = u ((c.verts[j.1]?).getD 0) - u ((c.verts[k.1]?).getD 0) := by
  constructor
  · intro h j k
    have a := h j
    have b := h k
    rw [dot_sub_right] at a b
    linear_combination a - b
  · intro h j
    rw [dot_sub_right]
    exact h j 0

theorem Spec.Renumbered.grad (h : Renumbered T num cell back D D' vol vol' fixed fixed') {c : DSimplex K} (hc : c ∈ D.cells) {u' : Nat → K}
    {G : Vec K g} : IsGrad D' (cell c) u' (T.turn G) ↔ IsGrad D c (fun i => u' (num i)) G := by
  obtain ⟨s, hs⟩ := h.corners c hc
  have e : ∀ j, dot (T.turn G) (corner D' (cell c) (s j)) = dot G (corner D c j) + dot (T.turn G) T.shift := by
    intro j
    rw [(hs j).2, Rigid.pos, ← T.keeps G]
    simp only [dot, Pi.add_apply, mul_add, Finset.sum_add_distrib]
  rw [isGrad_iff, isGrad_iff]
  constructor
  · intro hg j k
    have := hg (s j) (s k)
    rw [e, e, (hs j).1, (hs k).1] at this
    rw [← this]
    ring
  · intro hg j k
    have := hg (s.symm j) (s.symm k)
    have ej := e (s.symm j)
    have ek := e (s.symm k)
    have vj := (hs (s.symm j)).1
    have vk := (hs (s.symm k)).1
    rw [Equiv.apply_symm_apply] at ej ek vj vk
    rw [ej, ek, vj, vk, ← this]
    ring

end

section
variable {T : Rigid K g} {num : Equiv.Perm Nat} {cell back : DSimplex K → DSimplex K} {D D' : DMesh K g} {vol vol' : DSimplex K → K}
  {marker marker' : Int → Int} {lo hi lo' hi' : Int} {v0 vN v0' vN' eps : K}

/-- The field, seen from the first mesh. -/
theorem field_moved (h : Renumbered T num cell back D D' vol vol' (Fixed D marker lo hi v0 vN) (Fixed D' marker' lo' hi' v0' vN'))
    {charges : List (K × Vec K g × DSimplex K)} {charges' : List (K × Vec K g × DSimplex K)} (hin : ∀ q ∈ charges, q.2.2 ∈ D.cells)
    (hp : charges'.Perm (charges.map (fun q => (q.1, T.pos q.2.1, cell q.2.2)))) {E' : DSimplex K → Vec K g}
    (hE : IsFieldOf eps D' vol' marker' lo' hi' v0' vN' charges' E') :
    IsFieldOf eps D vol marker lo hi v0 vN charges (fun c => T.turn.symm (E' (cell c))) := by
  have hmem : ∀ c ∈ D.cells, cell c ∈ D'.cells := fun c hc => h.cells.subset (List.mem_map_of_mem hc)
  obtain ⟨⟨phi, hs, hg⟩, hG⟩ := hE
  have any : ∀ {D : DMesh K g} {marker lo hi} {v0 vN : K} {i : Nat}, (OnSide D marker lo i ∨ OnSide D marker hi i) ↔ ∃ v, Fixed D marker lo hi v0 vN i v := by
    intro D marker lo hi v0 vN i
    classical
    constructor
    · intro h
      by_cases h2 : OnSide D marker hi i
      · exact ⟨vN, .inl ⟨h2, rfl⟩⟩
      · exact ⟨v0, .inr ⟨h.resolve_right h2, h2, rfl⟩⟩
    · rintro ⟨v, h | h⟩
      · exact .inr h.1
      · exact .inl h.1
  constructor
  · refine ⟨fun i => phi (num i), ?_, fun c hc => ?_⟩
    · have key : ∀ i v, Fixed D marker lo hi v0 vN i v → phi (num i) = v := by
        intro i v hi'
        rcases (h.fixed i v).1 hi' with ⟨a, rfl⟩ | ⟨a, b, rfl⟩
        · exact hs.high _ a
        · exact hs.low _ a b
      exact ⟨fun i a b => key i v0 (.inr ⟨a, b, rfl⟩), fun i a => key i vN (.inl ⟨a, rfl⟩)⟩
    · rw [← h.grad hc]
      have := hg _ (hmem c hc)
      rwa [map_neg, LinearEquiv.apply_symm_apply]
  · intro v G val hv hgr hval
    have a := hG (fun i => v (num.symm i)) (fun c' => T.turn (G (back c'))) (fun q => val (T.turn.symm (q.1 - T.shift), back q.2)) ?_ ?_ ?_
    · have e1 : pairing eps D' vol' E' (fun c' => T.turn (G (back c'))) = pairing eps D vol (fun c => T.turn.symm (E' (cell c))) G := by
        unfold pairing
        rw [← (h.cells.map _).sum_eq, List.map_map]
        congr 1
        refine List.map_congr_left fun c hc => ?_
        simp only [Function.comp]
        rw [h.back c hc, h.vols c hc, ← T.keeps (T.turn.symm _), LinearEquiv.apply_symm_apply]
      rw [← e1, a, (hp.map _).sum_eq, List.map_map]
      congr 2
      refine List.map_congr_left fun q hq => ?_
      simp only [Function.comp]
      rw [h.back _ (hin q hq), Rigid.pos, add_sub_cancel_right, LinearEquiv.symm_apply_apply]
    · intro i hi'
      refine hv _ (any (v0 := v0) (vN := vN).2 ?_)
      obtain ⟨y, hy⟩ := (any (v0 := v0') (vN := vN')).1 hi'
      exact ⟨y, (h.fixed _ y).2 (by rwa [Equiv.apply_symm_apply])⟩
    · intro c' hc'
      obtain ⟨c, hc, rfl⟩ := List.mem_map.1 (h.cells.symm.subset hc')
      rw [h.grad hc, h.back c hc]
      simpa using hgr c hc
    · intro q' hq'
      obtain ⟨q, hq, rfl⟩ := List.mem_map.1 (hp.subset hq')
      have := h.value (hin q hq) (hval q hq)
      simp only
      rwa [h.back _ (hin q hq), Rigid.pos, add_sub_cancel_right, LinearEquiv.symm_apply_apply]

/-! ### Runs -/

variable {place : Vec K g → DSimplex K} {dom dom' : Vec K g → Bool} {qom : String → K}

theorem pos_back (T : Rigid K g) (x : Vec K g) : T.turn.symm (T.pos x - T.shift) = x := by
  rw [Rigid.pos, add_sub_cancel_right, LinearEquiv.symm_apply_apply]

theorem forall₂_from {A B : Type} {R : A → B → Prop} {l : List A} {l' : List B} (h : List.Forall₂ R l l') {b : B} (hb : b ∈ l') :
    ∃ a ∈ l, R a b := by
  induction h with
  | nil => cases hb
  | @cons a b' l l' h _ ih =>
    rcases List.mem_cons.1 hb with rfl | hb
    · exact ⟨a, List.mem_cons_self, h⟩
    · obtain ⟨a', ha', hR⟩ := ih hb
      exact ⟨a', List.mem_cons_of_mem _ ha', hR⟩

theorem placed_moved {fixed fixed' : Nat → K → Prop} (h : Renumbered T num cell back D D' vol vol' fixed fixed') {i : Ideal K V (Part K g ρ) σ}
    {i' : Ideal K V (Part K g ρ) τ} (hi : MovedBy T i i') (hp : PlacedIn D place i) :
    PlacedIn D' (fun x => cell (place (T.turn.symm (x - T.shift)))) i' := by
  intro pop' hpop' q' hq'
  obtain ⟨pop, hpop, -, -, hk⟩ := forall₂_from hi hpop'
  obtain ⟨k, hk1, hk2⟩ := List.mem_map.1 (hk.subset (List.mem_map_of_mem (f := kin) hq'))
  obtain ⟨q, hq, rfl⟩ := List.mem_map.1 hk1
  have hx : q'.x = T.pos q.x := (congrArg Prod.fst hk2).symm
  obtain ⟨a, b, c⟩ := hp pop hpop q hq
  simp only
  rw [hx, pos_back]
  refine ⟨h.cells.subset (List.mem_map_of_mem a), (h.hull a _).2 b, fun c' hc' hh => ?_⟩
  obtain ⟨c0, hc0, rfl⟩ := List.mem_map.1 (h.cells.symm.subset hc')
  rw [c c0 hc0 ((h.hull hc0 _).1 hh)]

/-- A charge as a function of what a particle is. -/
theorem points_kin {weight : Part K g ρ → K} (hwt : ∀ q q', q.rest = q'.rest → weight q = weight q') :
    ∃ w : ρ → K, ∀ q, weight q = w q.rest := by
  classical
  refine ⟨fun r => if h : ∃ q : Part K g ρ, q.rest = r then weight h.choose else 0, fun q => ?_⟩
  have h : ∃ q' : Part K g ρ, q'.rest = q.rest := ⟨q, rfl⟩
  simp only [dif_pos h]
  exact hwt _ _ h.choose_spec.symm

theorem points_moved {weight : Part K g ρ → K} (hwt : ∀ q q', q.rest = q'.rest → weight q = weight q') (factor : K) {l l' : List (Pop K V (Part K g ρ))}
    (h : List.Forall₂ (fun s s' => s'.name = s.name ∧ s'.charge = s.charge ∧ (s'.st.items.map kin).Perm ((s.st.items.map kin).map T.kin)) l l') :
    (pointsIn weight factor (fun q => cell (place (T.turn.symm (q.x - T.shift)))) l').Perm
      ((pointsIn weight factor (fun q => place q.x) l).map (fun q => (q.1, T.pos q.2.1, cell q.2.2))) := by
  obtain ⟨w, hw⟩ := points_kin hwt
  induction h with
  | nil => exact .nil
  | @cons s s' l l' h _ ih =>
    unfold pointsIn at ih ⊢
    rw [List.flatMap_cons, List.flatMap_cons, List.map_append]
    refine List.Perm.append ?_ ih
    have := h.2.2.map (fun k => (s.charge * w k.2.2 * factor, k.1, cell (place (T.turn.symm (k.1 - T.shift)))))
    simp only [List.map_map] at this ⊢
    rw [h.2.1]
    refine (List.Perm.of_eq (List.map_congr_left fun q _ => ?_)).trans (this.trans (List.Perm.of_eq (List.map_congr_left fun q _ => ?_)))
    · simp [kin, hw]
    · simp only [kin, hw, Rigid.kin, pos_back, Function.comp]

theorem leap_moved (dt q : K) (e : Vec K g) (k : Vec K g × Vec K g × ρ) :
    leap dt q (some (T.turn e)) (T.kin k) = T.kin (leap dt q (some e) k) := by
  simp only [leap, Rigid.kin, Rigid.pos, Option.getD_some, map_add, map_smul]
  rw [add_right_comm]

variable {sh sh' : Shape K g}

theorem step_moved {φ' : Type} (h : Renumbered T num cell back D D' sh.vol sh'.vol (Fixed D marker lo hi v0 vN) (Fixed D' marker' lo' hi' v0' vN'))
    (he : 0 < eps) (hv : ∀ c ∈ D.cells, 0 < sh.vol c) (hdom : ∀ x, dom' (T.pos x) = dom x)
    {cfg : Cfg K V (Part K g ρ) σ φ} {cfg' : Cfg K V (Part K g ρ) τ φ'} (hdt : cfg'.dt = cfg.dt) (hw : cfg'.A.weight = cfg.A.weight)
    (hf : cfg'.factor = cfg.factor) (hwt : ∀ q q', q.rest = q'.rest → cfg.A.weight q = cfg.A.weight q')
    {i j : Ideal K V (Part K g ρ) σ} {i' j' : Ideal K V (Part K g ρ) τ} (hp : PlacedIn D place i) (hmb : MovedBy T i i')
    (hj : MovedIn eps D sh.vol marker lo hi v0 vN dom qom cfg (fun _ => []) i j)
    (hj' : MovedIn eps D' sh'.vol marker' lo' hi' v0' vN' dom' qom cfg' (fun _ => []) i' j') : MovedBy T j j' := by
  obtain ⟨E, hE, hs⟩ := movedIn_place hp hj
  obtain ⟨E', hE', hs'⟩ := movedIn_place (placed_moved h hmb hp) hj'
  rw [hw, hf] at hE'
  have hin : ∀ q ∈ pointsIn cfg.A.weight (cfg.factor.getD 1) (fun q => place q.x) i.pops, q.2.2 ∈ D.cells := by
    intro q hq
    unfold pointsIn at hq
    obtain ⟨pop, hpop, hq⟩ := List.mem_flatMap.1 hq
    obtain ⟨r, hr, rfl⟩ := List.mem_map.1 hq
    exact (hp pop hpop r hr).1
  have hE2 := field_moved h hin (points_moved hwt _ hmb) hE'
  have huniq := C97_field_unique he hv (placed_hull hp) hE hE2
  have hEE : ∀ c ∈ D.cells, E' (cell c) = T.turn (E c) := fun c hc => by rw [huniq c hc, LinearEquiv.apply_symm_apply]
  unfold MovedBy at hmb ⊢
  have hpop : ∀ s ∈ i.pops, ∀ q ∈ s.st.items, place q.x ∈ D.cells := fun s hs q hq => (hp s hs q hq).1
  generalize i.pops = l at hmb hs hpop
  generalize i'.pops = l' at hmb hs'
  generalize j.pops = m at hs ⊢
  generalize j'.pops = m' at hs' ⊢
  clear hj hj' hE hE' hE2 hp hin
  induction hmb generalizing m m' with
  | nil => cases hs; cases hs'; exact .nil
  | @cons s s' l l' hss _ ih =>
    cases hs with
    | @cons _ t _ m ht hs =>
      cases hs' with
      | @cons _ t' _ m' ht' hs' =>
        refine .cons ⟨ht'.1.trans (hss.1.trans ht.1.symm), ht'.2.1.trans (hss.2.1.trans ht.2.1.symm), ?_⟩
          (ih (fun s hs => hpop s (List.mem_cons_of_mem _ hs)) m hs m' hs')
        rw [ht.2.2, ht'.2.2, hss.2.1, hss.1, hdt]
        simp only [List.map_nil, List.append_nil]
        split_ifs with h0
        · exact hss.2.2
        · refine ((hss.2.2.map _).filter _).trans (List.Perm.of_eq ?_)
          have e : ∀ k ∈ s.st.items.map kin, leap cfg.dt (qom s.name) (some (E' (cell (place (T.turn.symm ((T.kin k).1 - T.shift)))))) (T.kin k) =
              T.kin (leap cfg.dt (qom s.name) (some (E (place k.1))) k) := by
            intro k hk
            obtain ⟨q, hq, rfl⟩ := List.mem_map.1 hk
            rw [← leap_moved]
            have e := hEE _ (hpop s List.mem_cons_self q hq)
            have e2 : T.turn.symm ((T.kin (kin q)).1 - T.shift) = q.x := pos_back T q.x
            rw [e2, e]
            rfl
          rw [List.map_map, Function.comp_def, List.map_congr_left e, ← Function.comp_def T.kin, ← List.map_map, List.filter_map]
          congr 1
          exact List.filter_congr fun k _ => hdom k.1

theorem run_moved {φ' : Type} (h : Renumbered T num cell back D D' sh.vol sh'.vol (Fixed D marker lo hi v0 vN) (Fixed D' marker' lo' hi' v0' vN'))
    (he : 0 < eps) (hv : ∀ c ∈ D.cells, 0 < sh.vol c) (hdom : ∀ x, dom' (T.pos x) = dom x)
    {cfg : Cfg K V (Part K g ρ) σ φ} {cfg' : Cfg K V (Part K g ρ) τ φ'} (hdt : cfg'.dt = cfg.dt) (hw : cfg'.A.weight = cfg.A.weight)
    (hf : cfg'.factor = cfg.factor) (hwt : ∀ q q', q.rest = q'.rest → cfg.A.weight q = cfg.A.weight q') :
    ∀ {is : List (Ideal K V (Part K g ρ) σ)} {is' : List (Ideal K V (Part K g ρ) τ)} {i0 i0'},
    (i0 :: is).IsChain (MovedIn eps D sh.vol marker lo hi v0 vN dom qom cfg (fun _ => [])) →
    (i0' :: is').IsChain (MovedIn eps D' sh'.vol marker' lo' hi' v0' vN' dom' qom cfg' (fun _ => [])) →
    is'.length = is.length → (∀ j ∈ i0 :: is, PlacedIn D place j) → MovedBy T i0 i0' → List.Forall₂ (MovedBy T) (i0 :: is) (i0' :: is') := by
  intro is
  induction is with
  | nil =>
    intro is' i0 i0' _ _ hl _ h0
    rw [List.length_eq_zero_iff.1 hl]
    exact .cons h0 .nil
  | cons i1 is ih =>
    intro is' i0 i0' hc hc' hl hp h0
    cases is' with
    | nil => simp at hl
    | cons i1' is' =>
      rw [List.isChain_cons_cons] at hc hc'
      exact .cons h0 (ih hc.2 hc'.2 (by simpa using hl) (fun j hj => hp j (List.mem_cons_of_mem _ hj))
        (step_moved h he hv hdom hdt hw hf hwt (hp i0 List.mem_cons_self) h0 hc.1 hc'.1))

end

section
open TimeLoop
variable {hg : g ≤ 3} {D D' : DMesh K g} {sh sh' : Shape K g} {N N' : Nat} {pmarker pmarker' marker marker' : Int → Int} {lo hi lo' hi' : Int}
  {v0 vN v0' vN' eps : K}

theorem made_none {sn : String} {cfg : Cfg K V (Part K g ρ) σ φ} (h : cfg.sources = []) (sl : Nat) (i : Ideal K V (Part K g ρ) σ) : i.made cfg sl sn = [] := by
  unfold Ideal.made
  rw [h]
  split <;> rfl

theorem comp_made_none {sn : String} {cfg : Cfg K V (Part K g ρ) σ φ} (h : cfg.sources = []) (sl : Nat) (i : Ideal K V (Part K g ρ) σ) : Comp.made cfg sl sn i = [] := by
  unfold Comp.made
  rw [h]
  split <;> rfl

/-- C132.  Two simulations, the second on the mesh of the first moved by a rigid motion or reflection, with other numbers of the vertices, cells and
facets and the corners of the cells in other orders, and with its particles moved in the same way and in any order: after each step the particles of
the second are those of the first, moved in the same way.  Each particle of the first is to be in one cell only, not between two. -/
theorem C132_run (hD : Triangulation hg D) {dom : Vec K g → Bool} (hdom : ConvexDomain hg D dom) (junk : Int)
    (hpm : ∀ c ∈ D.cells, ∀ F ∈ c.facets, (∀ c' ∈ D.cells, F ∈ c'.facets → c'.index = c.index) → pmarker F ≠ 0)
    (hD' : Triangulation hg D') {dom' : Vec K g → Bool} (hdom' : ConvexDomain hg D' dom') (junk' : Int)
    (hpm' : ∀ c ∈ D'.cells, ∀ F ∈ c.facets, (∀ c' ∈ D'.cells, F ∈ c'.facets → c'.index = c.index) → pmarker' F ≠ 0)
    (he : 0 < eps) (hm : Meshed D sh N) (hl : ∀ i ≤ N, Linked D (fun i => OnSide D marker lo i ∨ OnSide D marker hi i) i)
    (hm' : Meshed D' sh' N') (hl' : ∀ i ≤ N', Linked D' (fun i => OnSide D' marker' lo' i ∨ OnSide D' marker' hi' i) i)
    {dd dd' : List (String × Int × Val K)}
    (h1 : dd.lookup "rmin" = some (lo, .num v0)) (h2 : dd.lookup "rmax" = some (hi, .num vN))
    (h1' : dd'.lookup "rmin" = some (lo', .num v0')) (h2' : dd'.lookup "rmax" = some (hi', .num vN'))
    {T : Rigid K g} {num : Equiv.Perm Nat} {cell back : DSimplex K → DSimplex K}
    (hT : Renumbered T num cell back D D' sh.vol sh'.vol (Fixed D marker lo hi v0 vN) (Fixed D' marker' lo' hi' v0' vN'))
    (hTd : ∀ x, dom' (T.pos x) = dom x) :
    ∃ M s M' s', buildMesh hg D junk pmarker = .ok M ∧ createOn eps D sh N marker dd = .ok s ∧
      buildMesh hg D' junk' pmarker' = .ok M' ∧ createOn eps D' sh' N' marker' dd' = .ok s' ∧
      ∀ {bc bc' : String → Int → τ → BCall K g g ρ → Except Err (τ × Part K g ρ)}, (∀ sn, PlainBC M (bc sn)) → (∀ sn, PlainBC M' (bc' sn)) →
      ∀ {maxCross maxCross' : Nat} {qom : String → K} {cfg cfg' : Cfg K V (Part K g ρ) (τ × Vec K g) (List (Vec K g))},
        cfg.move = pyMove (le_refl g) M bc maxCross cfg.dt qom (fun _ f q => (f[q.cell.toNat]?).map (fun e => -e)) →
        cfg'.move = pyMove (le_refl g) M' bc' maxCross' cfg'.dt qom (fun _ f q => (f[q.cell.toNat]?).map (fun e => -e)) →
        cfg'.dt = cfg.dt → cfg'.A.weight = cfg.A.weight → cfg'.factor = cfg.factor → cfg.sources = [] → cfg'.sources = [] →
        (∀ q q', q.rest = q'.rest → cfg.A.weight q = cfg.A.weight q') →
        ∀ {d d' : Nat → Nat} {C C' sl sl' : Nat}, PlasmaOn cfg D sh N marker s d C → PlasmaOn cfg' D' sh' N' marker' s' d' C' → GoodCfg cfg → GoodCfg cfg' →
        ∀ {z z' : Species.HRow K} (n : Nat) {init init' : Option (List (String × List (Part K g ρ)))},
        (∀ gs, init = some gs → ∀ a ∈ gs, ∀ q ∈ a.2, InSimplex D q) → (∀ gs, init' = some gs → ∀ a ∈ gs, ∀ q ∈ a.2, InSimplex D' q) →
        ∀ {st st' : State K V (Part K g ρ) (τ × Vec K g) (List (Vec K g))} {i i' : Ideal K V (Part K g ρ) (τ × Vec K g)} {b b' : List K},
        Fresh sl (N + 1) C n z st i b → Fresh sl' (N' + 1) C' n z' st' i' b' → (i.pops.map (·.name)).Nodup → (i'.pops.map (·.name)).Nodup →
        (st.writer = none → cfg.partEvery = none) → (st'.writer = none → cfg'.partEvery = none) →
        ∀ {i0 k0 : Ideal K V (Part K g ρ) (τ × Vec K g)} {is ks : List (Ideal K V (Part K g ρ) (τ × Vec K g))},
          Ideal.run cfg sl (N + 1) (onCells D) init b n i = .ok (i0, is) → Ideal.run cfg' sl' (N' + 1) (onCells D') init' b' n i' = .ok (k0, ks) →
          ∀ {place : Vec K g → DSimplex K}, (∀ j ∈ i0 :: is, PlacedIn D place j) → MovedBy T i0 k0 →
          List.Forall₂ (MovedBy T) (i0 :: is) (k0 :: ks) := by
  obtain ⟨M, s, e, hs, key⟩ := C97_plasma (τ := τ) (ρ := ρ) (V := V) hD hdom junk hpm he hm hl h1 h2
  obtain ⟨M', s', e', hs', key'⟩ := C97_plasma (τ := τ) (ρ := ρ) (V := V) hD' hdom' junk' hpm' he hm' hl' h1' h2'
  refine ⟨M, s, M', s', e, hs, e', hs', ?_⟩
  intro bc bc' hbc hbc' mc mc' qom cfg cfg' hmv hmv' hdt hw hfac hns hns' hwt d d' C C' sl sl' hP hP' hc hc' z z' n init init' hin hin' st st' i i' b b'
    hf hf' hn hn' hwr hwr' i0 k0 is ks hr hr' place hpl h0
  have a := (key hbc hmv (by rw [hns]; simp) hP hc n hin hf hn hwr hr).1
  have a' := (key' hbc' hmv' (by rw [hns']; simp) hP' hc' n hin' hf' hn' hwr' hr').1
  have l := C68_run hc (hP.goodMesh hm) n init hf hwr
  have l' := C68_run hc' (hP'.goodMesh hm') n init' hf' hwr'
  rw [hr] at l
  rw [hr'] at l'
  refine run_moved (qom := qom) hT he hm.vol hTd hdt hw hfac hwt (a.imp fun i j h => ?_) (a'.imp fun i j h => ?_) (l'.1.trans l.1.symm) hpl h0
  · have := h.2.2
    simp only [made_none hns] at this
    exact this
  · have := h.2.2
    simp only [made_none hns'] at this
    exact this

/-- C132.  The same for simulations with the compiled movers and containers. -/
theorem C132_compiled (hD : Triangulation hg D) {nVerts : Nat} (hnum : Numbered D nVerts) {dom : Vec K g → Bool} (hdom : ConvexDomain hg D dom) (junk : Int)
    (hpm : ∀ c ∈ D.cells, ∀ F ∈ c.facets, (∀ c' ∈ D.cells, F ∈ c'.facets → c'.index = c.index) → pmarker F ≠ 0)
    (hD' : Triangulation hg D') {nVerts' : Nat} (hnum' : Numbered D' nVerts') {dom' : Vec K g → Bool} (hdom' : ConvexDomain hg D' dom') (junk' : Int)
    (hpm' : ∀ c ∈ D'.cells, ∀ F ∈ c.facets, (∀ c' ∈ D'.cells, F ∈ c'.facets → c'.index = c.index) → pmarker' F ≠ 0)
    (he : 0 < eps) (hm : Meshed D sh N) (hl : ∀ i ≤ N, Linked D (fun i => OnSide D marker lo i ∨ OnSide D marker hi i) i)
    (hm' : Meshed D' sh' N') (hl' : ∀ i ≤ N', Linked D' (fun i => OnSide D' marker' lo' i ∨ OnSide D' marker' hi' i) i)
    {dd dd' : List (String × Int × Val K)}
    (h1 : dd.lookup "rmin" = some (lo, .num v0)) (h2 : dd.lookup "rmax" = some (hi, .num vN))
    (h1' : dd'.lookup "rmin" = some (lo', .num v0')) (h2' : dd'.lookup "rmax" = some (hi', .num vN'))
    {T : Rigid K g} {num : Equiv.Perm Nat} {cell back : DSimplex K → DSimplex K}
    (hT : Renumbered T num cell back D D' sh.vol sh'.vol (Fixed D marker lo hi v0 vN) (Fixed D' marker' lo' hi' v0' vN'))
    (hTd : ∀ x, dom' (T.pos x) = dom x) :
    ∃ M cm s M' cm' s', buildMesh hg D junk pmarker = .ok M ∧ buildCpp D nVerts pmarker = .ok cm ∧ createOn eps D sh N marker dd = .ok s ∧
      buildMesh hg D' junk' pmarker' = .ok M' ∧ buildCpp D' nVerts' pmarker' = .ok cm' ∧ createOn eps D' sh' N' marker' dd' = .ok s' ∧
      ∀ {L L' : Layout K g}, L.Right → L'.Right →
      ∀ {bc bc' : String → Int → τ → BCall K g g ρ → Except Err (τ × Part K g ρ)}, (∀ sn, PlainBC M (bc sn)) → (∀ sn, PlainBC M' (bc' sn)) →
      ∀ {maxCross maxCross' : Nat} {qom : String → K} {cfg cfg' : Cfg K V (Part K g ρ) ((τ × Vec K g) × Scratch K) (List (Vec K g))},
        cfg.move = CppLoop.cppMove (le_refl g) L cm bc maxCross cfg.dt qom (fun _ f q => (f[q.cell.toNat]?).map (fun e => -e)) →
        cfg'.move = CppLoop.cppMove (le_refl g) L' cm' bc' maxCross' cfg'.dt qom (fun _ f q => (f[q.cell.toNat]?).map (fun e => -e)) →
        cfg'.dt = cfg.dt → cfg'.A.weight = cfg.A.weight → cfg'.factor = cfg.factor → cfg.sources = [] → cfg'.sources = [] →
        (∀ q q', q.rest = q'.rest → cfg.A.weight q = cfg.A.weight q') →
        ∀ {d d' : Nat → Nat} {C C' sl sl' : Nat}, PlasmaOn cfg D sh N marker s d C → PlasmaOn cfg' D' sh' N' marker' s' d' C' → 2 ≤ sl → 2 ≤ sl' →
        CppLoop.GoodEvery cfg → CppLoop.GoodEvery cfg' →
        ∀ {skip skip' : Int}, skip ≠ 0 → skip' ≠ 0 → ∀ (n : Nat) {init init' : Option (List (String × List (Part K g ρ)))},
        (∀ gs, init = some gs → ∀ a ∈ gs, ∀ q ∈ a.2, InSimplex D q) → (∀ gs, init' = some gs → ∀ a ∈ gs, ∀ q ∈ a.2, InSimplex D' q) →
        ∀ {st st' : CppLoop.State K V (Part K g ρ) ((τ × Vec K g) × Scratch K) (List (Vec K g))}
          {i i' : Ideal K V (Part K g ρ) ((τ × Vec K g) × Scratch K)} {b b' : List K},
        CppLoop.Fresh sl (N + 1) C skip st i b → CppLoop.Fresh sl' (N' + 1) C' skip' st' i' b' → (i.pops.map (·.name)).Nodup → (i'.pops.map (·.name)).Nodup →
        (st.file = none → cfg.partEvery = none) → (st'.file = none → cfg'.partEvery = none) →
        ∀ {i0 k0 : Ideal K V (Part K g ρ) ((τ × Vec K g) × Scratch K)} {is ks : List (Ideal K V (Part K g ρ) ((τ × Vec K g) × Scratch K))},
          Comp.run cfg sl (N + 1) (onCells D) init b n i = .ok (i0, is) → Comp.run cfg' sl' (N' + 1) (onCells D') init' b' n i' = .ok (k0, ks) →
          ∀ {place : Vec K g → DSimplex K}, (∀ j ∈ i0 :: is, PlacedIn D place j) → MovedBy T i0 k0 →
          List.Forall₂ (MovedBy T) (i0 :: is) (k0 :: ks) := by
  obtain ⟨M, cm, s, e, ecm, hs, key⟩ := C120_plasma (τ := τ) (ρ := ρ) (V := V) hD hnum hdom junk hpm he hm hl h1 h2
  obtain ⟨M', cm', s', e', ecm', hs', key'⟩ := C120_plasma (τ := τ) (ρ := ρ) (V := V) hD' hnum' hdom' junk' hpm' he hm' hl' h1' h2'
  refine ⟨M, cm, s, M', cm', s', e, ecm, hs, e', ecm', hs', ?_⟩
  intro L L' hL hL' bc bc' hbc hbc' mc mc' qom cfg cfg' hmv hmv' hdt hw hfac hns hns' hwt d d' C C' sl sl' hP hP' h2 h2' hc hc' skip skip' hsk hsk' n
    init init' hin hin' st st' i i' b b' hf hf' hn hn' hwr hwr' i0 k0 is ks hr hr' place hpl h0
  have a := ((key hL hbc hmv (by rw [hns]; simp) hP h2 hc hsk n hin hf hn hwr).1 hr).1
  have a' := ((key' hL' hbc' hmv' (by rw [hns']; simp) hP' h2' hc' hsk' n hin' hf' hn' hwr').1 hr').1
  have l := C109_run h2 hc (hP.goodMesh hm) hsk n init hf hwr
  have l' := C109_run h2' hc' (hP'.goodMesh hm') hsk' n init' hf' hwr'
  rw [hr] at l
  rw [hr'] at l'
  refine run_moved (qom := qom) hT he hm.vol hTd hdt hw hfac hwt (a.imp fun i j h => ?_) (a'.imp fun i j h => ?_) (l'.1.trans l.1.symm) hpl h0
  · have := h.2.2
    simp only [comp_made_none hns] at this
    exact this
  · have := h.2.2
    simp only [comp_made_none hns'] at this
    exact this

/-- C132.  On a mesh that is mapped to itself by a rigid motion or reflection, with the prescribed potentials, a simulation whose particles are
arranged symmetrically at the beginning has them arranged symmetrically after each step. -/
theorem C132_symmetric (hD : Triangulation hg D) {dom : Vec K g → Bool} (hdom : ConvexDomain hg D dom) (junk : Int)
    (hpm : ∀ c ∈ D.cells, ∀ F ∈ c.facets, (∀ c' ∈ D.cells, F ∈ c'.facets → c'.index = c.index) → pmarker F ≠ 0)
    (he : 0 < eps) (hm : Meshed D sh N) (hl : ∀ i ≤ N, Linked D (fun i => OnSide D marker lo i ∨ OnSide D marker hi i) i)
    {dd : List (String × Int × Val K)}
    (h1 : dd.lookup "rmin" = some (lo, .num v0)) (h2 : dd.lookup "rmax" = some (hi, .num vN))
    {T : Rigid K g} {num : Equiv.Perm Nat} {cell back : DSimplex K → DSimplex K}
    (hT : Renumbered T num cell back D D sh.vol sh.vol (Fixed D marker lo hi v0 vN) (Fixed D marker lo hi v0 vN)) (hTd : ∀ x, dom (T.pos x) = dom x) :
    ∃ M s, buildMesh hg D junk pmarker = .ok M ∧ createOn eps D sh N marker dd = .ok s ∧
      ∀ {bc : String → Int → τ → BCall K g g ρ → Except Err (τ × Part K g ρ)}, (∀ sn, PlainBC M (bc sn)) →
      ∀ {maxCross : Nat} {qom : String → K} {cfg : Cfg K V (Part K g ρ) (τ × Vec K g) (List (Vec K g))},
        cfg.move = pyMove (le_refl g) M bc maxCross cfg.dt qom (fun _ f q => (f[q.cell.toNat]?).map (fun e => -e)) → cfg.sources = [] →
        (∀ q q', q.rest = q'.rest → cfg.A.weight q = cfg.A.weight q') →
        ∀ {d : Nat → Nat} {C sl : Nat}, PlasmaOn cfg D sh N marker s d C → GoodCfg cfg →
        ∀ {z : Species.HRow K} (n : Nat) {init : Option (List (String × List (Part K g ρ)))},
        (∀ gs, init = some gs → ∀ a ∈ gs, ∀ q ∈ a.2, InSimplex D q) →
        ∀ {st : State K V (Part K g ρ) (τ × Vec K g) (List (Vec K g))} {i : Ideal K V (Part K g ρ) (τ × Vec K g)} {b : List K},
        Fresh sl (N + 1) C n z st i b → (i.pops.map (·.name)).Nodup → (st.writer = none → cfg.partEvery = none) →
        ∀ {i0 : Ideal K V (Part K g ρ) (τ × Vec K g)} {is : List (Ideal K V (Part K g ρ) (τ × Vec K g))},
          Ideal.run cfg sl (N + 1) (onCells D) init b n i = .ok (i0, is) →
          ∀ {place : Vec K g → DSimplex K}, (∀ j ∈ i0 :: is, PlacedIn D place j) → MovedBy T i0 i0 → ∀ j ∈ i0 :: is, MovedBy T j j := by
  obtain ⟨M, s, M', s', e, hs, e', hs', key⟩ := C132_run (τ := τ) (ρ := ρ) (V := V) hD hdom junk hpm hD hdom junk hpm he hm hl hm hl h1 h2 h1 h2 hT hTd
  rw [e] at e'
  rw [hs] at hs'
  cases e'
  cases hs'
  refine ⟨M, s, e, hs, ?_⟩
  intro bc hbc mc qom cfg hmv hns hwt d C sl hP hc z n init hin st i b hf hn hwr i0 is hr place hpl h0
  exact List.forall₂_same.1 (key hbc hbc hmv hmv rfl rfl rfl hns hns hwt hP hP hc hc n hin hin hf hf hn hn hwr hwr hr hr hpl h0)

end

/-! ### Electrons in the grounded kite and in its mirror image -/

section Demo
open TimeLoop

/-- The reflection that exchanges the corners (2,0) and (0,0). -/
def kiteMirror : Rigid ℚ 2 where
  turn := LinearEquiv.ofInvolutive
    { toFun := fun x => ![-x 0, x 1]
      map_add' := fun x y => by funext i; fin_cases i <;> simp [add_comm]
      map_smul' := fun a x => by funext i; fin_cases i <;> simp }
    (fun x => by funext i; fin_cases i <;> simp)
  shift := ![2, 0]
  keeps u v := by
    simp only [dot, Fin.sum_univ_two]
    show -u 0 * -v 0 + u 1 * v 1 = _
    ring

theorem kiteMirror_pos (x : Vec ℚ 2) : kiteMirror.pos x = ![2 - x 0, x 1] := by
  funext i
  fin_cases i
  · show -x 0 + 2 = 2 - x 0
    ring
  · exact add_zero (x 1)

theorem kite_le3 {tag i} : OnSide (kite false) kiteMarks tag i → i ≤ 3 := by
  rintro ⟨c, hc, k, F, -, -, -, j, -, hj⟩
  have := List.mem_of_getElem? hj
  simp only [kite, kiteCells, List.mem_cons, List.not_mem_nil, or_false] at hc
  rcases hc with rfl | rfl <;> simp at this <;> omega

theorem kite_fixed (i : Nat) (v : ℚ) : Fixed (kite false) kiteMarks 1 2 0 0 i v ↔ i ≤ 2 ∧ v = 0 := by
  have t0 : OnSide (kite false) kiteMarks 1 0 := (touches_iff _ _ _ _).1 (by decide)
  have n0 : ¬ OnSide (kite false) kiteMarks 2 0 := fun h => absurd ((touches_iff _ _ _ _).2 h) (by decide)
  have t1 : OnSide (kite false) kiteMarks 2 1 := (touches_iff _ _ _ _).1 (by decide)
  have t2 : OnSide (kite false) kiteMarks 2 2 := (touches_iff _ _ _ _).1 (by decide)
  have n3 : ∀ tag ∈ [1, 2], ¬ OnSide (kite false) kiteMarks tag 3 := fun tag ht h =>
    absurd ((touches_iff _ _ _ _).2 h) (by clear h; revert tag; decide)
  constructor
  · have key : ∀ tag ∈ [1, 2], OnSide (kite false) kiteMarks tag i → i ≤ 2 := by
      intro tag ht h
      have := kite_le3 h
      rcases Nat.lt_or_ge i 3 with h3 | h3
      · omega
      · cases le_antisymm this h3
        exact absurd h (n3 tag ht)
    rintro (⟨h, rfl⟩ | ⟨h, -, rfl⟩)
    · exact ⟨key 2 (by simp) h, rfl⟩
    · exact ⟨key 1 (by simp) h, rfl⟩
  · rintro ⟨hi, rfl⟩
    interval_cases i
    · exact .inr ⟨t0, n0, rfl⟩
    · exact .inl ⟨t1, rfl⟩
    · exact .inl ⟨t2, rfl⟩

theorem kite_mirrored : Renumbered kiteMirror (Equiv.swap 0 2) id id (kite false) (kite false) (kiteShape false).vol (kiteShape false).vol
    (Fixed (kite false) kiteMarks 1 2 0 0) (Fixed (kite false) kiteMarks 1 2 0 0) where
  cells := by rw [List.map_id]
  back _ _ := rfl
  corners c hc := by
    simp only [kite, kiteCells, List.mem_cons, List.not_mem_nil, or_false] at hc
    rcases hc with rfl | rfl
    · exact ⟨Equiv.swap 0 2, by decide +kernel⟩
    · exact ⟨Equiv.swap 0 1, by decide +kernel⟩
  vols _ _ := rfl
  fixed i v := by
    rw [kite_fixed, kite_fixed]
    have : Equiv.swap 0 2 i ≤ 2 ↔ i ≤ 2 := by
      rcases Nat.lt_or_ge i 3 with h | h
      · interval_cases i <;> decide
      · rw [Equiv.swap_apply_of_ne_of_ne (by omega) (by omega)]
    rw [this]

theorem kiteDom_mirror (x : Vec ℚ 2) : kiteDom (kiteMirror.pos x) = kiteDom x := by
  rw [kiteMirror_pos, kiteDom, kiteDom, decide_eq_decide]
  simp only [Matrix.cons_val_zero, Matrix.cons_val_one]
  constructor <;> rintro ⟨a, b, c, d⟩ <;> refine ⟨?_, ?_, ?_, ?_⟩ <;> linarith

theorem kiteGrounded_plasma : PlasmaOn kiteGrounded (kite false) (kiteShape false) 3 kiteMarks kiteGroundedSolver (fun k => k) 2 := by
  obtain ⟨-, -, a3, a4, a5, a6, a7, -⟩ := kite_plasma
  exact ⟨rfl, rfl, a3, a4, a5, a6, a7, ⟨fun _ _ => rfl, fun _ _ _ _ h => h, fun _ h => h⟩⟩

/-- Two electrons that go from the lower triangle to the upper one. -/
def symInit : List (String × List KitePart) := [("e", [kitePart (3 / 4) (-1 / 8) 0 (1 / 2) 1, kitePart (5 / 4) (-1 / 8) 0 (1 / 2) 1])]

def leftInit : List (String × List KitePart) := [("e", [kitePart (3 / 4) (-1 / 2) (1 / 4) 1 1, kitePart 1 (1 / 2) 0 (-1 / 4) 0])]

/-- The mirror image of `leftInit`, in another order. -/
def rightInit : List (String × List KitePart) := [("e", [kitePart 1 (1 / 2) 0 (-1 / 4) 0, kitePart (5 / 4) (-1 / 2) (-1 / 4) 1 1])]

theorem mir_in {gs : List (String × List KitePart)} (h : gs ∈ [symInit, leftInit, rightInit]) :
    ∀ gs', some gs = some gs' → ∀ a ∈ gs', ∀ q ∈ a.2, InSimplex (kite false) q := by
  intro gs' hgs a ha q hq
  cases hgs
  have key : ∀ q : KitePart, kiteDom q.x = true → q.x 1 ≠ 0 → q.cell = (kitePlace q.x).index → q.del = false → InSimplex (kite false) q :=
    fun q h h1 h2 h3 => ⟨⟨kitePlace q.x, (kite_placed h h1).1, h2.symm, (kite_placed h h1).2.1⟩, h3⟩
  have all : ∀ gs ∈ [symInit, leftInit, rightInit], ∀ a ∈ gs, ∀ q ∈ a.2, kiteDom q.x = true ∧ q.x 1 ≠ 0 ∧ q.cell = (kitePlace q.x).index ∧ q.del = false := by
    decide +kernel
  obtain ⟨h1, h2, h3, h4⟩ := all gs h a ha q hq
  exact key q h1 h2 h3 h4

def mirRun (gs : List (String × List KitePart)) :=
  Ideal.run kiteGrounded 2 4 onKite (some gs) [0, 0, 0, 0] 2 kiteIdeal

/-- What is to be checked of the runs of the two simulations, in terms that can be computed. -/
def mirCheck {σ : Type} (is is' : List (Ideal ℚ ℚ KitePart σ)) : Bool :=
  decide (∀ i ∈ is, ∀ pop ∈ i.pops, ∀ q ∈ pop.st.items, kiteDom q.x = true ∧ q.x 1 ≠ 0) &&
  (match is.head?, is'.head? with
   | some j, some k => decide (List.Forall₂ (fun s s' : Pop ℚ ℚ KitePart => s'.name = s.name ∧ s'.charge = s.charge ∧
        (s'.st.items.map kin).Perm ((s.st.items.map kin).map kiteMirror.kin)) j.pops k.pops)
   | _, _ => false)

theorem mir_checked {σ : Type} {i0 k0 : Ideal ℚ ℚ KitePart σ} {is ks : List (Ideal ℚ ℚ KitePart σ)} (h : mirCheck (i0 :: is) (k0 :: ks) = true) :
    (∀ j ∈ i0 :: is, PlacedIn (kite false) kitePlace j) ∧ MovedBy kiteMirror i0 k0 := by
  unfold mirCheck at h
  simp only [List.head?_cons, Bool.and_eq_true, decide_eq_true_eq] at h
  exact ⟨fun j hj pop hp q hq => kite_placed (h.1 j hj pop hp q hq).1 (h.1 j hj pop hp q hq).2, h.2⟩

theorem kiteGrounded_made {s : Solver ℚ} (hs : createOn 1 (kite false) (kiteShape false) 3 kiteMarks kiteGroundedBCs = .ok s) : s = kiteGroundedSolver := by
  have : createOn 1 (kite false) (kiteShape false) 3 kiteMarks kiteGroundedBCs = .ok kiteGroundedSolver := rfl
  rw [hs] at this
  cases this
  rfl

/-- C132 applies: the electrons stay arranged symmetrically. -/
example : ∃ i0 is, mirRun symInit = .ok (i0, is) ∧ is.length = 2 ∧ ∀ j ∈ i0 :: is, MovedBy kiteMirror j j := by
  have a : ((mirRun symInit).toOption.map fun r => (r.2.length, mirCheck (r.1 :: r.2) (r.1 :: r.2))) = some (2, true) := by decide +kernel
  obtain ⟨i0, is, hr⟩ : ∃ i0 is, mirRun symInit = .ok (i0, is) := by
    cases h : mirRun symInit with
    | error e => rw [h] at a; cases a
    | ok r => exact ⟨r.1, r.2, rfl⟩
  rw [hr] at a
  simp only [Except.toOption, Option.map_some, Option.some.injEq, Prod.mk.injEq] at a
  refine ⟨i0, is, hr, a.1, ?_⟩
  obtain ⟨c1, c2⟩ := mir_checked a.2
  obtain ⟨M, s, e, hs, key⟩ := C132_symmetric (τ := Unit) (V := ℚ) (ρ := Nat) (eps := (1 : ℚ)) kite_triangulation kite_convex 0
    (pmarker := fun F => if F = 1 then 0 else 1) (by decide) one_pos (kite_meshed false) (kite_linked false) (dd := kiteGroundedBCs) rfl rfl
    kite_mirrored kiteDom_mirror
  have hM : kiteMesh = M := by unfold kiteMesh; rw [e]; rfl
  obtain rfl := kiteGrounded_made hs
  unfold mirRun at hr
  rw [← onCells_kite] at hr
  exact key (bc := fun _ => kiteSink) (fun _ => kite_sink M (kite_interior e)) (maxCross := 10) (qom := fun _ => -1) (cfg := kiteGrounded)
    (by rw [← hM]; rfl) rfl (fun _ _ _ => rfl) kiteGrounded_plasma kiteGrounded_goodCfg 2 (mir_in (by simp))
    (kite_fresh 2) (by simp [kiteIdeal]) (by simp [kiteState]) hr c1 c2

/-- C132 applies: the second simulation is the mirror image of the first. -/
example : ∃ i0 is k0 ks, mirRun leftInit = .ok (i0, is) ∧ mirRun rightInit = .ok (k0, ks) ∧
    List.Forall₂ (MovedBy kiteMirror) (i0 :: is) (k0 :: ks) := by
  have a : ((mirRun leftInit).toOption.bind fun r => (mirRun rightInit).toOption.map fun r' => mirCheck (r.1 :: r.2) (r'.1 :: r'.2)) = some true := by
    decide +kernel
  obtain ⟨i0, is, hr⟩ : ∃ i0 is, mirRun leftInit = .ok (i0, is) := by
    cases h : mirRun leftInit with
    | error e => rw [h] at a; cases a
    | ok r => exact ⟨r.1, r.2, rfl⟩
  obtain ⟨k0, ks, hr'⟩ : ∃ i0 is, mirRun rightInit = .ok (i0, is) := by
    cases h : mirRun rightInit with
    | error e => rw [hr, h] at a; cases a
    | ok r => exact ⟨r.1, r.2, rfl⟩
  refine ⟨i0, is, k0, ks, hr, hr', ?_⟩
  rw [hr, hr'] at a
  simp only [Except.toOption, Option.map_some, Option.bind_some, Option.some.injEq] at a
  obtain ⟨c1, c2⟩ := mir_checked a
  obtain ⟨M, s, M', s', e, hs, e', hs', key⟩ := C132_run (τ := Unit) (V := ℚ) (ρ := Nat) (eps := (1 : ℚ)) kite_triangulation kite_convex 0
    (pmarker := fun F => if F = 1 then 0 else 1) (by decide) kite_triangulation kite_convex 0
    (pmarker' := fun F => if F = 1 then 0 else 1) (by decide) one_pos (kite_meshed false) (kite_linked false) (kite_meshed false) (kite_linked false)
    (dd := kiteGroundedBCs) (dd' := kiteGroundedBCs) rfl rfl rfl rfl kite_mirrored kiteDom_mirror
  have hM : kiteMesh = M := by unfold kiteMesh; rw [e]; rfl
  have hM' : kiteMesh = M' := by unfold kiteMesh; rw [e']; rfl
  obtain rfl := kiteGrounded_made hs
  obtain rfl := kiteGrounded_made hs'
  unfold mirRun at hr hr'
  rw [← onCells_kite] at hr hr'
  exact key (bc := fun _ => kiteSink) (bc' := fun _ => kiteSink) (fun _ => kite_sink M (kite_interior e)) (fun _ => kite_sink M' (kite_interior e'))
    (maxCross := 10) (maxCross' := 10) (qom := fun _ => -1) (cfg := kiteGrounded) (cfg' := kiteGrounded) (by rw [← hM]; rfl) (by rw [← hM']; rfl)
    rfl rfl rfl rfl rfl (fun _ _ _ => rfl) kiteGrounded_plasma kiteGrounded_plasma kiteGrounded_goodCfg kiteGrounded_goodCfg 2
    (mir_in (by simp)) (mir_in (by simp)) (kite_fresh 2) (kite_fresh 2) (by simp [kiteIdeal]) (by simp [kiteIdeal])
    (by simp [kiteState]) (by simp [kiteState]) hr hr' c1 c2

def kiteCppGrounded : Cfg ℚ ℚ KitePart ((Unit × Vec ℚ 2) × Scratch ℚ) (List (Vec ℚ 2)) :=
  { kiteCppCfg with bc := applyVecOn (touches (kite false) kiteMarks) kiteGroundedSolver.bcs }

def mirCppRun (gs : List (String × List KitePart)) :=
  Comp.run kiteCppGrounded 2 4 onKite (some gs) [0, 0, 0, 0] 2 kiteCppIdeal

/-- C132 applies in compiled code. -/
example : ∃ i0 is k0 ks, mirCppRun leftInit = .ok (i0, is) ∧ mirCppRun rightInit = .ok (k0, ks) ∧
    List.Forall₂ (MovedBy kiteMirror) (i0 :: is) (k0 :: ks) := by
  have a : ((mirCppRun leftInit).toOption.bind fun r => (mirCppRun rightInit).toOption.map fun r' => mirCheck (r.1 :: r.2) (r'.1 :: r'.2)) = some true := by
    decide +kernel
  obtain ⟨i0, is, hr⟩ : ∃ i0 is, mirCppRun leftInit = .ok (i0, is) := by
    cases h : mirCppRun leftInit with
    | error e => rw [h] at a; cases a
    | ok r => exact ⟨r.1, r.2, rfl⟩
  obtain ⟨k0, ks, hr'⟩ : ∃ i0 is, mirCppRun rightInit = .ok (i0, is) := by
    cases h : mirCppRun rightInit with
    | error e => rw [hr, h] at a; cases a
    | ok r => exact ⟨r.1, r.2, rfl⟩
  refine ⟨i0, is, k0, ks, hr, hr', ?_⟩
  rw [hr, hr'] at a
  simp only [Except.toOption, Option.map_some, Option.bind_some, Option.some.injEq] at a
  obtain ⟨c1, c2⟩ := mir_checked a
  obtain ⟨M, cm, s, M', cm', s', e, ecm, hs, e', ecm', hs', key⟩ := C132_compiled (τ := Unit) (V := ℚ) (ρ := Nat) (eps := (1 : ℚ)) kite_triangulation
    kite_numbered kite_convex 0 (pmarker := fun F => if F = 1 then 0 else 1) (by decide) kite_triangulation kite_numbered kite_convex 0
    (pmarker' := fun F => if F = 1 then 0 else 1) (by decide) one_pos (kite_meshed false) (kite_linked false) (kite_meshed false) (kite_linked false)
    (dd := kiteGroundedBCs) (dd' := kiteGroundedBCs) rfl rfl rfl rfl kite_mirrored kiteDom_mirror
  have hM : kiteCpp = cm := by unfold kiteCpp; rw [ecm]; rfl
  have hM' : kiteCpp = cm' := by unfold kiteCpp; rw [ecm']; rfl
  obtain rfl := kiteGrounded_made hs
  obtain rfl := kiteGrounded_made hs'
  have hpl : PlasmaOn kiteCppGrounded (kite false) (kiteShape false) 3 kiteMarks kiteGroundedSolver (fun k => k) 2 := by
    obtain ⟨a1, a2, a3, a4, a5, a6, a7, a8⟩ := kiteGrounded_plasma
    exact ⟨a1, a2, a3, a4, a5, a6, a7, a8⟩
  have hev : CppLoop.GoodEvery kiteCppGrounded :=
    ⟨by simp [kiteCppGrounded, kiteCppCfg], by simp [kiteCppGrounded, kiteCppCfg], by simp [kiteCppGrounded, kiteCppCfg]⟩
  unfold mirCppRun at hr hr'
  rw [← onCells_kite] at hr hr'
  exact key (L := layoutXY) (L' := layoutXY) C66_layouts.2.1 C66_layouts.2.1 (bc := fun _ => kiteSink) (bc' := fun _ => kiteSink)
    (fun _ => kite_sink M (kite_interior e)) (fun _ => kite_sink M' (kite_interior e')) (maxCross := 10) (maxCross' := 10) (qom := fun _ => -1)
    (cfg := kiteCppGrounded) (cfg' := kiteCppGrounded) (by rw [← hM]; rfl) (by rw [← hM']; rfl) rfl rfl rfl rfl rfl (fun _ _ _ => rfl) hpl hpl
    (le_refl 2) (le_refl 2) hev hev (skip := 2) (skip' := 2) (by decide) (by decide) 2 (mir_in (by simp)) (mir_in (by simp)) kiteCpp_fresh kiteCpp_fresh
    (by simp [kiteCppIdeal]) (by simp [kiteCppIdeal]) (by simp [kiteCppState]) (by simp [kiteCppState]) hr hr' c1 c2

end Demo
end Dt
