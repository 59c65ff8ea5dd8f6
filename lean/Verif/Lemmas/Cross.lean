import Verif.Spec.Cross
import Verif.Lemmas.Straight
import Verif.Props.MeshBuild
import Mathlib.Order.CountableDenseLinearOrder
import Mathlib.Data.Finset.Max
import Mathlib.Data.Rat.Lemmas
import Mathlib.Algebra.Order.Field.Rat

/-!
# Lines through a triangulation
-/

set_option linter.unusedSectionVars false

namespace Dt
open Dt.Topology Spec
variable {K : Type} [Field K] [LinearOrder K] [IsStrictOrderedRing K] {g p : Nat} {τ ρ : Type}

/-! ### Numbers of cells bound the number of crossings -/

/-- The cells of a mesh can be numbered so that the number decreases in the direction `d`. -/
def Downhill (M : Mesh K g) (d : Vec K g) (μ : Int → Int) : Prop :=
  ∀ ci c (k : Nat) cj m, M.cell ci = some c → c.neighbors[k]? = some cj → cj ≠ -1 → c.normals[k]? = some m →
    0 < dot m d → μ cj < μ ci

theorem downhill_step {h : g ≤ p} {M : Mesh K g} (hM : M.Conforming) {v : Variant}
    {bc : Int → τ → BCall K g p ρ → Except Err (τ × Part K p ρ)}
    (hbc : GoodBC h M (v.sharesDx = true) bc) (ha : Absorbs M bc) {μ : Int → Int} {s s1 : Trk K p τ ρ}
    (e : crossOnce h M v bc s = .ok (s1, false)) (hs : Sound h M s) (out : M.isInside (proj h s.part.x) s.cell = .ok false)
    (hd : Downhill M (proj h (s.part.x - s.part.x0)) μ) :
    Downhill M (proj h (s1.part.x - s1.part.x0)) μ ∧ μ s1.cell < μ s.cell := by
  obtain ⟨c, j, f, n, ht⟩ := cross_through hM hbc ha hs out (crossOnce_ok e)
  have hf1 : 0 < 1 - f := by linarith [ht.lt]
  have hdir : proj h (s1.part.x - s1.part.x0) = (1 - f) • proj h (s.part.x - s.part.x0) := by
    rw [ht.x, ht.x0]
    funext i
    simp only [proj, Pi.sub_apply, Pi.add_apply, Pi.smul_apply, smul_eq_mul]
    ring
  refine ⟨fun ci c k cj m a b c' d' e' => ?_, hd _ _ j _ n ht.cell ht.next ht.inner ht.normal ht.pos⟩
  rw [hdir, dot_smul] at e'
  exact hd ci c k cj m a b c' d' (pos_of_mul_pos_right e' hf1.le)

theorem crossN_drop {h : g ≤ p} {M : Mesh K g} (hM : M.Conforming) {v : Variant} (hv : v.datum = .ok ())
    {bc : Int → τ → BCall K g p ρ → Except Err (τ × Part K p ρ)}
    (hbc : GoodBC h M (v.sharesDx = true) bc) (ha : Absorbs M bc) {μ : Int → Int}
    {k : Nat} {s s' : Trk K p τ ρ} (hc : CrossN h M v bc k s s') (hs : Sound h M s)
    (hd : Downhill M (proj h (s.part.x - s.part.x0)) μ) : μ s'.cell + k ≤ μ s.cell ∧ M.cell s'.cell ≠ none := by
  induction hc with
  | zero s =>
    obtain ⟨c, hcell, -, -⟩ := hs.ex
    simp [hcell]
  | @succ k s s1 s' out e r ih =>
    obtain ⟨s2, brk, e2, hs2⟩ := cross_sound hM hv hbc hs out
    rw [e] at e2
    cases e2
    obtain ⟨hd1, h2⟩ := downhill_step hM hbc ha e hs out hd
    have h1 := ih (hs2 rfl) hd1
    refine ⟨?_, h1.2⟩
    push_cast
    omega

/-- The mesh made of a triangulation with such numbers. -/
theorem downhill_built {hg : g ≤ 3} {D : DMesh K g} (hT : Triangulation hg D) {junk : Int} {marker : Int → Int} {M : Mesh K g}
    (e : buildMesh hg D junk marker = .ok M) {n : Nat} (hn : AtMost hg D n) (d : Vec K g) :
    ∃ μ : Int → Int, Downhill M d μ ∧ ∀ ci, M.cell ci ≠ none → 0 ≤ μ ci ∧ μ ci < n := by
  classical
  obtain ⟨M', e', -, hinv, -⟩ := build_ok (hg := hg) hT.manifold junk marker
  rw [e] at e'
  cases e'
  obtain ⟨μ, h1, h2⟩ := hn d
  have hk := hT.manifold.nodup
  rw [topo_keys] at hk
  have uniq : ∀ c ∈ D.cells, ∀ c' ∈ D.cells, c.index = c'.index → c = c' := fun c hc c' hc' he =>
    List.inj_on_of_nodup_map hk hc hc' he
  let ν : Int → Int := fun ci => if hx : ∃ c, c ∈ D.cells ∧ c.index = ci then μ hx.choose else 0
  have hν : ∀ c ∈ D.cells, ν c.index = μ c := by
    intro c hc
    have hx : ∃ c', c' ∈ D.cells ∧ c'.index = c.index := ⟨c, hc, rfl⟩
    simp only [ν, dif_pos hx]
    rw [uniq _ hx.choose_spec.1 c hc hx.choose_spec.2]
  refine ⟨ν, ?_, ?_⟩
  · intro ci C k cj m hC hnb hne hm hpos
    obtain ⟨c, hc, rfl, row, hrow, rfl⟩ := hinv ci C hC
    have hk' : row[k]? = some cj := hnb
    have hkl : k < c.facets.length := by
      rw [hrow.length_eq]; exact (List.getElem?_eq_some_iff.1 hk').1
    have hF : c.facets[k]? = some c.facets[k] := List.getElem?_eq_getElem hkl
    have hnb : IsNeighbor D.topo c.index c.facets[k] cj := by
      have := hrow.get hkl (by rw [← hrow.length_eq]; exact hkl)
      have e2 : row[k]'(by rw [← hrow.length_eq]; exact hkl) = cj := (List.getElem?_eq_some_iff.1 hk').2
      simp only [List.get_eq_getElem] at this
      rw [e2] at this
      exact this
    rcases hnb with ⟨h3, -⟩ | ⟨h3, fs, hfs, hmem⟩
    · exact absurd h3 hne
    obtain ⟨c', hc', he⟩ := List.mem_map.1 hfs
    simp only [Prod.mk.injEq] at he
    obtain ⟨rfl, rfl⟩ := he
    obtain ⟨hkg, rfl⟩ := normal_get hm
    rw [hν c hc, hν c' hc']
    exact h2 c hc c' hc' ⟨fun h => h3 h.symm, ⟨k, hkg⟩, _, hF, hmem, hpos⟩
  · intro ci hci
    cases hC : M.cell ci with
    | none => exact absurd hC hci
    | some C =>
      obtain ⟨c, hc, rfl, -⟩ := hinv ci C hC
      rw [hν c hc]
      exact h1 c hc

/-! ### From an order to numbers -/

theorem atMost_of_rank {hg : g ≤ 3} {D : DMesh K g} {α : Type} [LinearOrder α]
    (h : ∀ d : Vec K g, ∃ f : DSimplex K → α, ∀ c ∈ D.cells, ∀ c' ∈ D.cells, Ahead hg d c c' → f c < f c') :
    AtMost hg D D.cells.length := by
  intro d
  obtain ⟨f, hf⟩ := h d
  refine ⟨fun c => ((D.cells.filter (fun c' => decide (f c < f c'))).length : Int), ?_, ?_⟩
  · intro c hc
    refine ⟨by positivity, ?_⟩
    have : (D.cells.filter (fun c' => decide (f c < f c'))).length < D.cells.length := by
      rw [List.length_filter_lt_length_iff_exists]
      exact ⟨c, hc, by simp⟩
    dsimp only
    exact_mod_cast this
  · intro c hc c' hc' hA
    have hlt := hf c hc c' hc' hA
    have : (D.cells.filter (fun x => decide (f c' < f x))).length < (D.cells.filter (fun x => decide (f c < f x))).length := by
      have hsub : (D.cells.filter (fun x => decide (f c' < f x))) =
          (D.cells.filter (fun x => decide (f c < f x))).filter (fun x => decide (f c' < f x)) := by
        rw [List.filter_filter]
        refine List.filter_congr fun x _ => ?_
        by_cases h1 : f c' < f x
        · simp [h1, hlt.trans h1]
        · simp [h1]
      rw [hsub, List.length_filter_lt_length_iff_exists]
      exact ⟨c', List.mem_filter.2 ⟨hc', by simpa using hlt⟩, by simp⟩
    dsimp only
    exact_mod_cast this

/-- A relation in which one can leave out an element with the least `r` from a chain has a rank. -/
theorem exists_rank {ι : Type} (S : Finset ι) (R : ι → ι → Prop) (r : ι → K) (hirr : ∀ a, ¬ R a a)
    (htri : ∀ a b c, a ∈ S → b ∈ S → c ∈ S → R a b → R b c → r b ≤ r a → r b ≤ r c → R a c) :
    ∃ f : ι → ℚ, ∀ a ∈ S, ∀ b ∈ S, R a b → f a < f b := by
  classical
  induction S using Finset.induction_on_min_value r with
  | empty => exact ⟨fun _ => 0, fun a ha => absurd ha (Finset.notMem_empty a)⟩
  | insert a s ha hmin ih =>
    obtain ⟨f, hf⟩ := ih (fun x y z hx hy hz => htri x y z (Finset.mem_insert_of_mem hx) (Finset.mem_insert_of_mem hy)
      (Finset.mem_insert_of_mem hz))
    obtain ⟨t, h1, h2⟩ := Order.exists_between_finsets ((s.filter (fun x => R x a)).image f) ((s.filter (fun x => R a x)).image f) (by
      intro u hu w hw
      obtain ⟨x, hx, rfl⟩ := Finset.mem_image.1 hu
      obtain ⟨y, hy, rfl⟩ := Finset.mem_image.1 hw
      obtain ⟨hx, rx⟩ := Finset.mem_filter.1 hx
      obtain ⟨hy, ry⟩ := Finset.mem_filter.1 hy
      exact hf x hx y hy (htri x a y (Finset.mem_insert_of_mem hx) (Finset.mem_insert_self _ _) (Finset.mem_insert_of_mem hy) rx ry
        (hmin x hx) (hmin y hy)))
    refine ⟨fun x => if x = a then t else f x, ?_⟩
    intro x hx y hy hR
    dsimp only
    by_cases hxa : x = a
    · subst hxa
      have hya : y ≠ x := by rintro rfl; exact hirr _ hR
      rw [if_pos rfl, if_neg hya]
      have hy' := (Finset.mem_insert.1 hy).resolve_left hya
      exact h2 _ (Finset.mem_image_of_mem f (Finset.mem_filter.2 ⟨hy', hR⟩))
    · have hx' := (Finset.mem_insert.1 hx).resolve_left hxa
      rw [if_neg hxa]
      by_cases hya : y = a
      · subst hya
        rw [if_pos rfl]
        exact h1 _ (Finset.mem_image_of_mem f (Finset.mem_filter.2 ⟨hx', hR⟩))
      · rw [if_neg hya]
        exact hf x hx' y ((Finset.mem_insert.1 hy).resolve_left hya) hR

/-! ### Cells in the direction of a motion -/

/-- Seen from `c`, some point of `c'` is in the direction `d`. -/
def Before (D : DMesh K g) (d : Vec K g) (c c' : DSimplex K) : Prop :=
  c.index ≠ c'.index ∧ ∃ p : Vec K g, ∃ s : K, 0 < s ∧ InInterior (corner D c) p ∧ InInterior (corner D c') (p + s • d)

/-- A point of a facet, strictly behind the other facets. -/
structure MidFacet {g : Nat} (v n : Fin (g + 1) → Vec K g) (k : Fin (g + 1)) (b : Vec K g) : Prop where
  on : ∀ i, i ≠ k → dot (n k) (b - v i) = 0
  behind : ∀ l i, l ≠ k → i ≠ l → dot (n l) (b - v i) < 0

theorem MidFacet.near {v n : Fin (g + 1) → Vec K g} (hg : 1 ≤ g) (h : Dual v n) {k : Fin (g + 1)} {b : Vec K g} (hb : MidFacet v n k b)
    {d : Vec K g} (hd : dot (n k) d < 0) : ∃ ε : K, 0 < ε ∧ ∀ δ, 0 < δ → δ ≤ ε → InInterior v (b + δ • d) := by
  obtain ⟨i0, hi0⟩ := exists_ne hg k
  -- a vertex on each facet
  choose o ho using fun l : Fin (g + 1) => exists_ne hg l
  obtain ⟨ε, h0, h1⟩ := small_enough (fun l => if l = k then -1 else dot (n l) (b - v (o l)))
    (fun l => if l = k then 0 else dot (n l) d) (by
      intro l
      split
      · norm_num
      · rename_i hl; exact hb.behind l _ hl (ho l))
  refine ⟨ε, h0, fun δ d0 d1 => h.interior hg fun l i hi => ?_⟩
  have e : b + δ • d - v i = (b - v i) + δ • d := by abel
  rw [e, dot_add, dot_smul]
  by_cases hl : l = k
  · subst hl
    rw [hb.on i hi, zero_add]
    exact mul_neg_of_pos_of_neg d0 hd
  · have := h1 δ d0.le d1 l
    simp only [if_neg hl] at this
    have e2 : b - v i = (b - v (o l)) - (v i - v (o l)) := by abel
    rw [e2, dot_sub, h.plane l (o l) i (ho l) hi, sub_zero]
    exact this

theorem midFacet {v n v' n' : Fin (g + 1) → Vec K g} (hg : 1 ≤ g) (h : Dual v n) (h' : Dual v' n') {k k' : Fin (g + 1)}
    (hv : ∀ i, i ≠ k → ∃ j, j ≠ k' ∧ v' j = v i) (hv' : ∀ j, j ≠ k' → ∃ i, i ≠ k ∧ v i = v' j) :
    ∃ b, MidFacet v n k b ∧ MidFacet v' n' k' b := by
  have hgK : (0 : K) < g := by exact_mod_cast hg
  let w : Fin (g + 1) → K := fun i => if i = k then 0 else 1 / g
  have hw : ∀ i, 0 ≤ w i := by
    intro i
    simp only [w]
    split
    · exact le_rfl
    · positivity
  have hpos : ∀ i, i ≠ k → 0 < w i := by
    intro i hi
    simp only [w, if_neg hi]
    positivity
  have hsum : ∑ i, w i = 1 := by
    have : ∑ i, w i = ∑ i ∈ Finset.univ.erase k, (1 / (g : K)) := by
      rw [← Finset.add_sum_erase _ _ (Finset.mem_univ k)]
      simp only [w, if_true, zero_add]
      refine Finset.sum_congr rfl fun i hi => ?_
      rw [if_neg (Finset.ne_of_mem_erase hi)]
    rw [this, Finset.sum_const, Finset.card_erase_of_mem (Finset.mem_univ k), Finset.card_univ, Fintype.card_fin]
    simp only [Nat.add_sub_cancel, nsmul_eq_mul]
    field_simp
  let b : Vec K g := fun c => ∑ i, w i * v i c
  have hb : ∀ c, b c = ∑ i, w i * v i c := fun _ => rfl
  have hwk : w k = 0 := by simp [w]
  refine ⟨b, ⟨?_, ?_⟩, ⟨?_, ?_⟩⟩
  · intro i hi
    rw [h.coef hsum hb hi, hwk, zero_mul]
  · intro l i hl hi
    rw [h.coef hsum hb hi]
    exact mul_neg_of_pos_of_neg (hpos l hl) (h.behind l i hi)
  · intro i hi
    rw [dot_combo hsum hb]
    refine Finset.sum_eq_zero fun j _ => ?_
    by_cases hj : j = k
    · rw [hj, hwk, zero_mul]
    · obtain ⟨j', hj', e⟩ := hv j hj
      rw [← e, h'.plane k' i j' hi hj', mul_zero]
  · intro l i hl hi
    rw [dot_combo hsum hb]
    obtain ⟨m, hm, em⟩ := hv' l hl
    refine Finset.sum_neg' ?_ ⟨m, Finset.mem_univ _, ?_⟩
    · intro j _
      by_cases hj : j = k
      · rw [hj, hwk, zero_mul]
      · obtain ⟨j', hj', e⟩ := hv j hj
        rw [← e]
        refine mul_nonpos_of_nonneg_of_nonpos (hw j) ?_
        by_cases hjl : j' = l
        · rw [hjl]; exact (h'.behind l i hi).le
        · rw [h'.plane l i j' hi hjl]
    · rw [em]
      exact mul_neg_of_pos_of_neg (hpos m hm) (h'.behind l i hi)

theorem before_of_ahead {hg : g ≤ 3} {D : DMesh K g} (hT : Triangulation hg D) {d : Vec K g} {c c' : DSimplex K} (hc : c ∈ D.cells)
    (hc' : c' ∈ D.cells) (h : Ahead hg d c c') : Before D d c c' := by
  obtain ⟨hne, k, F, hF, hmem, hpos⟩ := h
  refine ⟨hne, ?_⟩
  obtain ⟨k', hk'l, hk'e⟩ := List.getElem_of_mem hmem
  have hl' : c'.facets.length = g + 1 := hT.manifold.facets (c'.index, c'.facets) (List.mem_map.2 ⟨c', hc', rfl⟩)
  have hF' : c'.facets[k']? = some F := by rw [List.getElem?_eq_getElem hk'l, hk'e]
  have kg' : k' < g + 1 := by omega
  have d1 := dual_of hT hc
  have d2 := dual_of hT hc'
  have hv : ∀ (c₁ : DSimplex K), c₁ ∈ D.cells → ∀ c₂ ∈ D.cells, ∀ k₁ k₂ : Fin (g + 1),
      c₁.facets[k₁.1]? = some F → c₂.facets[k₂.1]? = some F →
      ∀ i, i ≠ oppo k₁ → ∃ j, j ≠ oppo k₂ ∧ corner D c₂ j = corner D c₁ i := by
    intro c₁ h₁ c₂ h₂ k₁ k₂ f₁ f₂ i hi
    have hi' := (oppo_on (oppo k₁) i).2 hi
    rw [oppo_oppo] at hi'
    have hil : i.1 < c₁.verts.length := by rw [hT.corners c₁ h₁]; exact i.2
    obtain ⟨j, oj, vj⟩ := (hT.same c₁ h₁ c₂ h₂ k₁ k₂ _ f₁ f₂ c₁.verts[i.1]).1
      ⟨i.1, hi', List.getElem?_eq_getElem hil⟩
    have hjl : j < g + 1 := by
      have := (List.getElem?_eq_some_iff.1 vj).1
      rw [hT.corners c₂ h₂] at this
      exact this
    refine ⟨⟨j, hjl⟩, ?_, ?_⟩
    · rw [← oppo_on, oppo_oppo]; exact oj
    · unfold corner
      rw [vj, List.getElem?_eq_getElem hil]
  have v1 := hv c hc c' hc' k ⟨k', kg'⟩ hF hF'
  have v2 := hv c' hc' c hc ⟨k', kg'⟩ k hF' hF
  obtain ⟨b, b1, b2⟩ := midFacet hT.dim d1 d2 v1 v2
  obtain ⟨a, ha, en⟩ := d1.opposite hT.dim d2 v1 v2 (fun q => hT.disjoint c hc c' hc' hne q)
  have e1 : dot (cutNormal hg (c.normal (oppo (oppo k)))) (-d) < 0 := by
    rw [oppo_oppo, show -d = (-1 : K) • d by simp, dot_smul]
    linarith
  have e2 : dot (cutNormal hg (c'.normal (oppo (oppo ⟨k', kg'⟩)))) d < 0 := by
    have en' : cutNormal hg (c'.normal (oppo (oppo ⟨k', kg'⟩))) = -(a • cutNormal hg (c.normal (oppo (oppo k)))) := en
    rw [en', dot_neg_left, dotl_smul, oppo_oppo]
    have := mul_pos ha hpos
    linarith
  obtain ⟨ε, p1, q1⟩ := b1.near hT.dim d1 e1
  obtain ⟨ε', p2, q2⟩ := b2.near hT.dim d2 e2
  refine ⟨b + ε • (-d), ε + ε', by linarith, q1 ε p1 le_rfl, ?_⟩
  have e : b + ε • (-d) + (ε + ε') • d = b + ε' • d := by
    rw [add_smul, smul_neg]; abel
  rw [e]
  exact q2 ε' p2 le_rfl

end Dt
