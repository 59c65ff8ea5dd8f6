import Verif.Lemmas.Cross
import Verif.Lemmas.BoxGrid
import Mathlib.Algebra.BigOperators.Fin

/-!
# Lines through the mesh on a box
-/

set_option linter.unusedSectionVars false

namespace Dt
open Dt.Topology Spec
variable {K : Type} [Field K] [LinearOrder K] [IsStrictOrderedRing K] {g : Nat}

/-- The side of a facet that is outside of the cell does not depend on the choice of the normal. -/
theorem outward_dir {hg : g ≤ 3} {D : DMesh K g} (hT : Triangulation hg D) {c : DSimplex K} (hc : c ∈ D.cells) {k : Fin (g + 1)}
    {a d : Vec K g} (ha : ∀ i j : Fin (g + 1), onFacet g k i → onFacet g k j → dot a (corner D c j - corner D c i) = 0)
    (ho : ∀ i j : Fin (g + 1), onFacet g k i → ¬ onFacet g k j → dot a (corner D c j - corner D c i) < 0)
    (hd : 0 < dot (cutNormal hg (c.normal k)) d) : 0 < dot a d := by
  obtain ⟨i, hi⟩ := exists_ne hT.dim (oppo k)
  have hi' : onFacet g k i := by have := (oppo_on (oppo k) i).2 hi; rwa [oppo_oppo] at this
  have hk : ¬ onFacet g k (oppo k) := by
    intro h
    have := (oppo_on (oppo k) (oppo k)).1 (by rw [oppo_oppo]; exact h)
    exact this rfl
  have hn := hT.outward c hc k i (oppo k) hi' hk
  have haa := ho i (oppo k) hi' hk
  set n := cutNormal hg (c.normal k) with hndef
  set ν := dot n (corner D c (oppo k) - corner D c i) with hν
  set α := dot a (corner D c (oppo k) - corner D c i) with hα
  have hz : ν • a - α • n = 0 := by
    refine (dual_of hT hc).perp_zero i fun j => ?_
    rw [dotl_sub, dotl_smul, dotl_smul]
    by_cases hj : j = oppo k
    · rw [hj, ← hν, ← hα]; ring
    · have hj' : onFacet g k j := by have := (oppo_on (oppo k) j).2 hj; rwa [oppo_oppo] at this
      rw [ha i j hi' hj', hndef, hT.perp c hc k i j hi' hj']
      ring
  have e : ν * dot a d = α * dot n d := by
    have : dot (ν • a - α • n) d = 0 := by rw [hz]; simp [dot]
    rw [dotl_sub, dotl_smul, dotl_smul] at this
    linarith
  have h2 : ν * dot a d < 0 := by rw [e]; exact mul_neg_of_neg_of_pos haa hd
  by_contra hc'
  have := mul_nonneg_of_nonpos_of_nonpos hn.le (not_lt.1 hc')
  linarith

namespace Box
variable {sq : K → K} {x y z : Nat → K} {nx ny nz i j k i' j' k' : Nat} {t t' : Tet}

/-- Six families of parallel planes: three of the grid and three of diagonals. -/
def plane (q : Fin 6) (s : Nat × Nat × Nat) : Int :=
  ![(s.1 : Int), (s.2.1 : Int), (s.2.2 : Int), (s.1 : Int) - s.2.1, (s.2.1 : Int) - s.2.2, (s.1 : Int) - s.2.2] q

/-- The family to which a facet of a tetrahedron belongs, and the side of the tetrahedron. -/
def family : Tet → Fin 4 → Fin 6 × Int
  | .xyz => ![(0, 1), (3, -1), (4, -1), (2, -1)]
  | .xzy => ![(0, 1), (5, -1), (4, 1), (1, -1)]
  | .zxy => ![(2, 1), (5, 1), (3, -1), (1, -1)]
  | .yxz => ![(1, 1), (3, 1), (5, -1), (2, -1)]
  | .zyx => ![(2, 1), (4, 1), (3, 1), (0, -1)]
  | .yzx => ![(1, 1), (4, -1), (5, 1), (0, -1)]

theorem family_on (t : Tet) (m a b : Fin 4) (ha : a ≠ m) (hb : b ≠ m) :
    plane (family t m).1 (step t a) = plane (family t m).1 (step t b) := by
  revert m a b
  cases t <;> decide

theorem family_out (t : Tet) (m a : Fin 4) (ha : a ≠ m) :
    (family t m).2 * plane (family t m).1 (step t m) + 1 = (family t m).2 * plane (family t m).1 (step t a) := by
  revert m a
  cases t <;> decide

/-- The number of the layer of a family in which a tetrahedron is, relative to its box. -/
def low : Tet → Fin 6 → Int
  | .xyz => ![0, 0, 0, 0, 0, 0]
  | .xzy => ![0, 0, 0, 0, -1, 0]
  | .zxy => ![0, 0, 0, 0, -1, -1]
  | .yxz => ![0, 0, 0, -1, 0, 0]
  | .zyx => ![0, 0, 0, -1, -1, -1]
  | .yzx => ![0, 0, 0, -1, 0, -1]

def layer (i j k : Nat) (t : Tet) (q : Fin 6) : Int := plane q (i, j, k) + low t q

/-- Through a facet one comes to the next layer of its family, and stays in the layers of the other families. -/
theorem layer_next {m : Fin 4} {l : Nat × Nat × Nat × Nat} (hl : (labels i j k t)[m.1]? = some l) (hl' : l ∈ labels i' j' k' t')
    (hne : (i, j, k, t) ≠ (i', j', k', t')) (q : Fin 6) :
    layer i' j' k' t' q = layer i j k t q + if q = (family t m).1 then (family t m).2 else 0 := by
  have ho := owner_cases hl'
  cases t <;> fin_cases m <;> cases hl <;> simp only [owners, Prod.mk.injEq] at ho <;>
    rcases ho with ⟨h1, h2, h3, rfl⟩ | ⟨h1, h2, h3, rfl⟩ <;>
    first
    | (exfalso; apply hne; simp only [Prod.mk.injEq, and_true]; omega)
    | (simp [labels] at hl'; obtain ⟨h1, h2, h3⟩ := hl'
       fin_cases q <;> simp [layer, plane, low, family] <;> omega)

/-- The vector across a family of planes. -/
def acrossPlanes (hx hy hz : K) (q : Fin 6) : Vec K 3 :=
  ![![1 / hx, 0, 0], ![0, 1 / hy, 0], ![0, 0, 1 / hz], ![1 / hx, -(1 / hy), 0], ![0, 1 / hy, -(1 / hz)], ![1 / hx, 0, -(1 / hz)]] q

section
variable {x0 y0 z0 hx hy hz : K}

theorem across_corner (px : 0 < hx) (py : 0 < hy) (pz : 0 < hz) (ex : ∀ i, x i = x0 + i * hx) (ey : ∀ i, y i = y0 + i * hy)
    (ez : ∀ i, z i = z0 + i * hz) (hi : i < nx) (hj : j < ny) (a b : Fin 4) (q : Fin 6) :
    dot (acrossPlanes hx hy hz q) (corner (dmesh sq x y z nx ny nz) (simplex sq x y z nx ny i j k t) b -
      corner (dmesh sq x y z nx ny nz) (simplex sq x y z nx ny i j k t) a) =
      ((plane q (step t b) : Int) : K) - ((plane q (step t a) : Int) : K) := by
  rw [corner_simplex hi hj, corner_simplex hi hj, dotB]
  generalize step t a = s
  generalize step t b = s'
  fin_cases q <;> simp [acrossPlanes, plane, ex, ey, ez] <;> field_simp <;> ring

theorem ahead_family (hsq : ∀ s, 0 < s → 0 < sq s) (px : 0 < hx) (py : 0 < hy) (pz : 0 < hz) (ex : ∀ i, x i = x0 + i * hx)
    (ey : ∀ i, y i = y0 + i * hy) (ez : ∀ i, z i = z0 + i * hz) (hi : i < nx) (hj : j < ny) (hk : k < nz) {m : Fin 4} {d : Vec K 3}
    (hd : 0 < dot (cutNormal (by decide : 3 ≤ 3) ((simplex sq x y z nx ny i j k t).normal m)) d) :
    0 < ((family t m).2 : K) * dot (acrossPlanes hx hy hz (family t m).1) d := by
  have rise : ∀ {x : Nat → K} {x0 hx : K}, 0 < hx → (∀ i, x i = x0 + i * hx) → ∀ n, Rising x n := by
    intro x x0 hx hp e n i _
    rw [e, e]
    push_cast
    linarith
  have hT := triangulation (nx := nx) (ny := ny) (nz := nz) hsq (rise px ex nx) (rise py ey ny) (rise pz ez nz)
  have key := outward_dir (a := ((family t m).2 : K) • acrossPlanes hx hy hz (family t m).1) hT
    (mem_simplices.2 ⟨i, j, k, t, hi, hj, hk, rfl⟩) (k := m) ?_ ?_ hd
  · rwa [dotl_smul] at key
  · intro a b ha hb
    unfold onFacet at ha hb
    rw [if_neg (by decide)] at ha hb
    rw [dotl_smul, across_corner px py pz ex ey ez hi hj,
      family_on t m a b (fun h => ha (congrArg Fin.val h)) (fun h => hb (congrArg Fin.val h))]
    ring
  · intro a b ha hb
    unfold onFacet at ha hb
    rw [if_neg (by decide)] at ha hb
    have hb' : b = m := by
      by_contra h
      exact hb (fun h' => h (Fin.ext h'))
    subst hb'
    rw [dotl_smul, across_corner px py pz ex ey ez hi hj]
    have := family_out t b a (fun h => ha (congrArg Fin.val h))
    have e : ((family t b).2 : K) * ((plane (family t b).1 (step t b) : Int) : K) + 1 =
        ((family t b).2 : K) * ((plane (family t b).1 (step t a) : Int) : K) := by exact_mod_cast this
    linarith

/-- The planes of a family still ahead. -/
def toGo (e : K) (v lo hi : Int) : Int := if 0 < e then hi - v else if e < 0 then v - lo else 0

theorem toGo_range (e : K) {v lo hi : Int} (h0 : lo ≤ v) (h1 : v ≤ hi) : 0 ≤ toGo e v lo hi ∧ toGo e v lo hi ≤ hi - lo := by
  unfold toGo
  split
  · omega
  · split <;> omega

theorem toGo_next {e : K} {v lo hi σ : Int} (hσ : σ = 1 ∨ σ = -1) (h : 0 < (σ : K) * e) : toGo e (v + σ) lo hi = toGo e v lo hi - 1 := by
  rcases hσ with rfl | rfl
  · have : 0 < e := by simpa using h
    simp only [toGo, if_pos this]
    omega
  · have : e < 0 := by simpa using h
    simp only [toGo, if_neg (not_lt.2 this.le), if_pos this]
    omega

/-- The first and the last layer of the families. -/
def loLayer (ny nz : Nat) : Fin 6 → Int := ![0, 0, 0, -ny, -nz, -nz]
def hiLayer (nx ny nz : Nat) : Fin 6 → Int := ![nx - 1, ny - 1, nz - 1, nx - 1, ny - 1, nx - 1]

theorem layer_range (hi : i < nx) (hj : j < ny) (hk : k < nz) (t : Tet) (q : Fin 6) :
    loLayer ny nz q ≤ layer i j k t q ∧ layer i j k t q ≤ hiLayer nx ny nz q := by
  fin_cases q <;> cases t <;> simp [loLayer, hiLayer, layer, plane, low] <;> omega

theorem family_sign (t : Tet) (m : Fin 4) : (family t m).2 = 1 ∨ (family t m).2 = -1 := by
  revert m
  cases t <;> decide

/-- In any direction one goes through no more cells than there are planes. -/
theorem atMost (hsq : ∀ s, 0 < s → 0 < sq s) (px : 0 < hx) (py : 0 < hy) (pz : 0 < hz) (ex : ∀ i, x i = x0 + i * hx)
    (ey : ∀ i, y i = y0 + i * hy) (ez : ∀ i, z i = z0 + i * hz) {n : Nat} (hn : 3 * (nx + ny + nz) ≤ n + 5) :
    AtMost (by decide : 3 ≤ 3) (dmesh sq x y z nx ny nz) n := by
  classical
  intro d
  let e : Fin 6 → K := fun q => dot (acrossPlanes hx hy hz q) d
  let val : Nat → Nat → Nat → Tet → Int := fun i j k t => ∑ q, toGo (e q) (layer i j k t q) (loLayer ny nz q) (hiLayer nx ny nz q)
  let μ : DSimplex K → Int := fun c => if h : ∃ a : Nat × Nat × Nat × Tet, a.1 < nx ∧ a.2.1 < ny ∧ a.2.2.1 < nz ∧
    c = simplex sq x y z nx ny a.1 a.2.1 a.2.2.1 a.2.2.2 then val h.choose.1 h.choose.2.1 h.choose.2.2.1 h.choose.2.2.2 else 0
  have hμ : ∀ i j k t, i < nx → j < ny → k < nz → μ (simplex sq x y z nx ny i j k t) = val i j k t := by
    intro i j k t hi hj hk
    have h : ∃ a : Nat × Nat × Nat × Tet, a.1 < nx ∧ a.2.1 < ny ∧ a.2.2.1 < nz ∧
        simplex sq x y z nx ny i j k t = simplex sq x y z nx ny a.1 a.2.1 a.2.2.1 a.2.2.2 := ⟨(i, j, k, t), hi, hj, hk, rfl⟩
    simp only [μ, dif_pos h]
    obtain ⟨h1, h2, h3, h4⟩ := h.choose_spec
    obtain ⟨a, b, c, e⟩ := tetNo_inj h1 h2 hi hj (congrArg DSimplex.index h4).symm
    rw [a, b, c, e]
  refine ⟨μ, ?_, ?_⟩
  · intro c hc
    obtain ⟨i, j, k, t, hi, hj, hk, rfl⟩ := mem_simplices.1 hc
    rw [hμ i j k t hi hj hk]
    have hr := fun q => toGo_range (e q) (layer_range hi hj hk t q).1 (layer_range hi hj hk t q).2
    constructor
    · exact Finset.sum_nonneg fun q _ => (hr q).1
    · have h1 : val i j k t ≤ ∑ q, (hiLayer nx ny nz q - loLayer ny nz q) := Finset.sum_le_sum fun q _ => (hr q).2
      have h2 : ∑ q, (hiLayer nx ny nz q - loLayer ny nz q) = 3 * ((nx : Int) + ny + nz) - 6 := by
        simp only [Fin.sum_univ_succ, hiLayer, loLayer]
        simp
        ring
      omega
  · intro c hc c' hc' hA
    obtain ⟨i, j, k, t, hi, hj, hk, rfl⟩ := mem_simplices.1 hc
    obtain ⟨i', j', k', t', hi', hj', hk', rfl⟩ := mem_simplices.1 hc'
    obtain ⟨hne, m, F, hF, hF', hpos⟩ := hA
    rw [hμ i j k t hi hj hk, hμ i' j' k' t' hi' hj' hk']
    simp only [simplex, List.getElem?_map, Option.map_eq_some_iff] at hF
    obtain ⟨l, hl, rfl⟩ := hF
    obtain ⟨l', hl', hll⟩ := List.mem_map.1 hF'
    obtain rfl := facetNo_inj (label_bound hi' hj' hl') (label_bound hi hj (List.mem_of_getElem? hl)) hll
    have hne' : (i, j, k, t) ≠ (i', j', k', t') := by
      rintro h
      simp only [Prod.mk.injEq] at h
      obtain ⟨rfl, rfl, rfl, rfl⟩ := h
      exact hne rfl
    have hL := layer_next hl hl' hne'
    have hs := ahead_family hsq px py pz ex ey ez hi hj hk hpos
    set q0 := (family t m).1 with hq0
    have h1 : ∀ q, toGo (e q) (layer i' j' k' t' q) (loLayer ny nz q) (hiLayer nx ny nz q) =
        toGo (e q) (layer i j k t q) (loLayer ny nz q) (hiLayer nx ny nz q) - if q = q0 then 1 else 0 := by
      intro q
      rw [hL q]
      by_cases hq : q = q0
      · subst hq
        rw [if_pos rfl, if_pos rfl, toGo_next (family_sign t m) hs]
      · rw [if_neg hq, if_neg hq, add_zero, sub_zero]
    have h2 : val i' j' k' t' = val i j k t - 1 := by
      simp only [val, h1]
      rw [Finset.sum_sub_distrib]
      simp
    omega

end

end Box
end Dt
