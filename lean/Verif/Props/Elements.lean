import Verif.Spec.Elements
import Mathlib.LinearAlgebra.Matrix.NonsingularInverse
import Mathlib.LinearAlgebra.FiniteDimensional.Lemmas
import Mathlib.Tactic.LinearCombination
import Mathlib.Tactic.Positivity
import Mathlib.Tactic.IntervalCases
import Mathlib.Algebra.Order.BigOperators.Ring.Finset

/-!
# Poisson's equation on any triangulation (C94)
-/

set_option linter.unusedSectionVars false

namespace Dt
open Spec Poisson Topology
variable {K : Type} [Field K] [LinearOrder K] [IsStrictOrderedRing K] {g : Nat}

namespace Poisson

theorem sum_zero_of_nonneg {l : List K} (hn : ∀ a ∈ l, 0 ≤ a) (h : l.sum = 0) : ∀ a ∈ l, a = 0 := by
  induction l with
  | nil => simp
  | cons b l ih =>
    have hb := hn b (by simp)
    have hl : 0 ≤ l.sum := List.sum_nonneg fun a ha => hn a (by simp [ha])
    rw [List.sum_cons] at h
    have h0 : b = 0 := by linarith
    intro a ha
    rcases List.mem_cons.1 ha with rfl | ha
    · exact h0
    · exact ih (fun a ha => hn a (by simp [ha])) (by linarith) a ha

section
variable {D : DMesh K g} {sh : Shape K g} {N : Nat}

theorem gradIn_add (c : DSimplex K) (u v : Nat → K) :
    gradIn sh c (fun i => u i + v i) = gradIn sh c u + gradIn sh c v := by
  funext d
  simp only [gradIn, Pi.add_apply, add_mul, Finset.sum_add_distrib]

theorem gradIn_smul (c : DSimplex K) (a : K) (u : Nat → K) :
    gradIn sh c (fun i => a * u i) = fun d => a * gradIn sh c u d := by
  funext d
  simp only [gradIn, mul_assoc, Finset.mul_sum]

theorem vert_eq {c : DSimplex K} (h : c.verts.length = g + 1) {k : Nat} (hk : k < g + 1) :
    c.verts.getD k 0 ∈ c.verts := by
  rw [List.getD_eq_getElem?_getD, List.getElem?_eq_getElem (by omega)]
  exact List.getElem_mem _

theorem gradIn_eq (hm : Meshed D sh N) {c : DSimplex K} (hc : c ∈ D.cells) (u : Nat → K) (d : Fin g) :
    gradIn sh c u d = ∑ j ∈ Finset.range (N + 1), u j * gradIn sh c (unit j) d := by
  simp only [gradIn, Finset.mul_sum]
  rw [Finset.sum_comm]
  refine Finset.sum_congr rfl fun k hk => ?_
  have hv := hm.range c hc _ (vert_eq (hm.corners c hc) (Finset.mem_range.1 hk))
  rw [Finset.sum_eq_single_of_mem (c.verts.getD k 0) (Finset.mem_range.2 (by omega))]
  · simp [unit]
  · intro j _ hj
    rw [unit, if_neg (Ne.symm hj)]
    simp

theorem isGrad_gradIn (hm : Meshed D sh N) {c : DSimplex K} (hc : c ∈ D.cells) (u : Nat → K) :
    IsGrad D c u (gradIn sh c u) := by
  intro j
  have h : dot (gradIn sh c u) (corner D c j - corner D c 0) =
      ∑ k : Fin (g + 1), u (c.verts.getD k 0) * dot (sh.grad c k) (corner D c j - corner D c 0) := by
    unfold dot gradIn
    simp only [Finset.sum_mul, Finset.mul_sum]
    rw [Finset.sum_comm]
    simp only [Finset.sum_range, mul_assoc]
  rw [h]
  simp only [hm.basis c hc, mul_sub, Finset.sum_sub_distrib, mul_ite, mul_one, mul_zero]
  simp [List.getD_eq_getElem?_getD]

/-- A function has only one gradient. -/
theorem isGrad_unique (hm : Meshed D sh N) {c : DSimplex K} (hc : c ∈ D.cells) {u : Nat → K} {G G' : Vec K g}
    (h : IsGrad D c u G) (h' : IsGrad D c u G') : G = G' := by
  let R : Matrix (Fin g) (Fin g) K := fun k d => sh.grad c k.succ d
  let E : Matrix (Fin g) (Fin g) K := fun d j => (corner D c j.succ - corner D c 0) d
  have hRE : R * E = 1 := by
    ext k j
    have := hm.basis c hc k.succ j.succ
    simp only [Fin.succ_inj, Fin.succ_ne_zero, if_false, sub_zero] at this
    rw [Matrix.mul_apply, Matrix.one_apply, ← this]
    rfl
  have hER : E * R = 1 := mul_eq_one_comm.1 hRE
  have key : ∀ (H : Vec K g), (∀ j : Fin (g + 1), dot H (corner D c j - corner D c 0) = 0) → H = 0 := by
    intro H hH
    have h1 : Matrix.vecMul H E = 0 := by
      funext j
      exact hH j.succ
    have h2 : Matrix.vecMul (Matrix.vecMul H E) R = H := by
      rw [Matrix.vecMul_vecMul, hER, Matrix.vecMul_one]
    rw [← h2, h1, Matrix.zero_vecMul]
  have := key (G - G') (fun j => by
    have e1 := h j
    have e2 := h' j
    have : dot (G - G') (corner D c j - corner D c 0) =
        dot G (corner D c j - corner D c 0) - dot G' (corner D c j - corner D c 0) := by
      simp only [dot, Pi.sub_apply, sub_mul, Finset.sum_sub_distrib]
    rw [this, e1, e2, sub_self])
  exact sub_eq_zero.1 this

/-- The energy product. -/
def form (eps : K) (D : DMesh K g) (sh : Shape K g) (u v : Nat → K) : K :=
  pairing eps D sh.vol (fun c => gradIn sh c u) (fun c => gradIn sh c v)

theorem pairing_congr {eps : K} {vol : DSimplex K → K} {F F' G G' : DSimplex K → Vec K g} (hF : ∀ c ∈ D.cells, F c = F' c)
    (hG : ∀ c ∈ D.cells, G c = G' c) : pairing eps D vol F G = pairing eps D vol F' G' := by
  unfold pairing
  congr 1
  exact List.map_congr_left fun c hc => by rw [hF c hc, hG c hc]

theorem form_add_left (eps : K) (u v w : Nat → K) :
    form eps D sh (fun i => u i + v i) w = form eps D sh u w + form eps D sh v w := by
  unfold form pairing
  rw [← List.sum_map_add]
  congr 1
  refine List.map_congr_left fun c _ => ?_
  dsimp only
  rw [gradIn_add]
  have : dot (gradIn sh c u + gradIn sh c v) (gradIn sh c w) =
      dot (gradIn sh c u) (gradIn sh c w) + dot (gradIn sh c v) (gradIn sh c w) := by
    simp only [dot, Pi.add_apply, add_mul, Finset.sum_add_distrib]
  rw [this]
  ring

theorem form_comm (eps : K) (u v : Nat → K) : form eps D sh u v = form eps D sh v u := by
  unfold form pairing
  congr 1
  refine List.map_congr_left fun c _ => ?_
  have : dot (gradIn sh c u) (gradIn sh c v) = dot (gradIn sh c v) (gradIn sh c u) := by
    simp only [dot, mul_comm]
  rw [this]

theorem form_eq (hm : Meshed D sh N) (eps : K) (u v : Nat → K) :
    ∑ i ∈ Finset.range (N + 1), v i * ∑ j ∈ Finset.range (N + 1), stiffnessOn eps D sh i j * u j = form eps D sh u v := by
  have list_sum : ∀ (l : List (DSimplex K)) (S : Finset Nat) (f : Nat → DSimplex K → K),
      ∑ i ∈ S, (l.map (f i)).sum = (l.map (fun c => ∑ i ∈ S, f i c)).sum := by
    intro l S f
    induction l with
    | nil => simp
    | cons c l ih => simp only [List.map_cons, List.sum_cons, Finset.sum_add_distrib, ih]
  have list_mul : ∀ (l : List (DSimplex K)) (a : K) (f : DSimplex K → K),
      a * (l.map f).sum = (l.map (fun c => a * f c)).sum := by
    intro l a f
    exact (List.sum_map_mul_left l f a).symm
  unfold form pairing stiffnessOn
  simp only [mul_comm _ (u _), list_mul, list_sum]
  congr 1
  refine List.map_congr_left fun c hc => ?_
  have h1 : dot (gradIn sh c u) (gradIn sh c v) =
      ∑ i ∈ Finset.range (N + 1), v i * ∑ j ∈ Finset.range (N + 1), u j * dot (gradIn sh c (unit j)) (gradIn sh c (unit i)) := by
    unfold dot
    have : ∀ d, gradIn sh c u d * gradIn sh c v d = ∑ i ∈ Finset.range (N + 1), ∑ j ∈ Finset.range (N + 1),
        v i * (u j * (gradIn sh c (unit j) d * gradIn sh c (unit i) d)) := by
      intro d
      rw [gradIn_eq hm hc u, gradIn_eq hm hc v, Finset.sum_mul_sum, Finset.sum_comm]
      refine Finset.sum_congr rfl fun i _ => Finset.sum_congr rfl fun j _ => ?_
      ring
    simp only [this, Finset.mul_sum]
    rw [Finset.sum_comm]
    refine Finset.sum_congr rfl fun i _ => ?_
    rw [Finset.sum_comm]
  rw [h1]
  simp only [Finset.mul_sum, Finset.sum_mul]
  refine Finset.sum_congr rfl fun i _ => Finset.sum_congr rfl fun j _ => ?_
  ring

theorem form_self_nonneg (hm : Meshed D sh N) {eps : K} (he : 0 < eps) (u : Nat → K) : 0 ≤ form eps D sh u u := by
  unfold form pairing
  refine List.sum_nonneg ?_
  intro a ha
  obtain ⟨c, hc, rfl⟩ := List.mem_map.1 ha
  have := hm.vol c hc
  have : 0 ≤ dot (gradIn sh c u) (gradIn sh c u) := Finset.sum_nonneg fun i _ => mul_self_nonneg _
  positivity

/-- A function without energy is constant on each cell. -/
theorem form_self_zero (hm : Meshed D sh N) {eps : K} (he : 0 < eps) {u : Nat → K} (h : form eps D sh u u = 0)
    {c : DSimplex K} (hc : c ∈ D.cells) {i j : Nat} (hi : i ∈ c.verts) (hj : j ∈ c.verts) : u i = u j := by
  have hz : dot (gradIn sh c u) (gradIn sh c u) = 0 := by
    unfold form pairing at h
    have hnn : ∀ a ∈ D.cells.map (fun c => eps * dot (gradIn sh c u) (gradIn sh c u) * sh.vol c), 0 ≤ a := by
      intro a ha
      obtain ⟨c, hc, rfl⟩ := List.mem_map.1 ha
      have := hm.vol c hc
      have : 0 ≤ dot (gradIn sh c u) (gradIn sh c u) := Finset.sum_nonneg fun i _ => mul_self_nonneg _
      positivity
    have := sum_zero_of_nonneg hnn h _ (List.mem_map.2 ⟨c, hc, rfl⟩)
    have hv := hm.vol c hc
    rcases mul_eq_zero.1 this with h1 | h1
    · rcases mul_eq_zero.1 h1 with h2 | h2
      · exact absurd h2 he.ne'
      · exact h2
    · exact absurd h1 hv.ne'
  have hG : gradIn sh c u = 0 := by
    funext d
    have := (Finset.sum_eq_zero_iff_of_nonneg (fun i _ => mul_self_nonneg (gradIn sh c u i))).1 hz d (Finset.mem_univ _)
    exact mul_self_eq_zero.1 this
  have hall : ∀ k ∈ c.verts, u k = u ((c.verts[0]?).getD 0) := by
    intro k hk
    obtain ⟨m, hm1, hm2⟩ := List.getElem_of_mem hk
    have hlen := hm.corners c hc
    have := isGrad_gradIn hm hc u ⟨m, by omega⟩
    rw [hG] at this
    simp only [dot, Pi.zero_apply, zero_mul, Finset.sum_const_zero, List.getElem?_eq_getElem hm1, Option.getD_some, hm2] at this
    exact (sub_eq_zero.1 this.symm)
  rw [hall i hi, hall j hj]

theorem form_definite (hm : Meshed D sh N) {eps : K} (he : 0 < eps) {S : Nat → Prop} {u : Nat → K} (h : form eps D sh u u = 0)
    (hS : ∀ i, S i → u i = 0) {i : Nat} (hi : Linked D S i) : u i = 0 := by
  induction hi with
  | base h => exact hS _ h
  | step hc hi hj _ ih => rw [form_self_zero hm he h hc hj hi, ih]

end

section
variable {D : DMesh K g} {sh : Shape K g} {N : Nat} {marker : Int → Int} {lo hi : Int} {v0 vN : K}

theorem mem_facetVerts (c : DSimplex K) (k i : Nat) : i ∈ facetVerts c g k ↔ OfFacet g c k i := by
  unfold facetVerts OfFacet onFacet
  split
  · simp
  · rw [List.mem_eraseIdx_iff_getElem?]

theorem touches_iff (D : DMesh K g) (marker : Int → Int) (tag : Int) (i : Nat) :
    touches D marker tag i = true ↔ OnSide D marker tag i := by
  unfold touches OnSide
  simp only [List.any_eq_true, Bool.and_eq_true, decide_eq_true_eq, List.mem_range, List.contains_iff_mem, mem_facetVerts,
    Option.map_eq_some_iff]
  constructor
  · rintro ⟨c, hc, k, hk, ⟨F, h1, h2⟩, h3⟩
    exact ⟨c, hc, k, F, by omega, h1, h2, h3⟩
  · rintro ⟨c, hc, k, F, hk, h1, h2, h3⟩
    exact ⟨c, hc, k, by omega, ⟨F, h1, h2⟩, h3⟩

/-- The solver that the constructor makes. -/
def madeOn (eps : K) (D : DMesh K g) (sh : Shape K g) (N : Nat) (marker : Int → Int) (lo hi : Int) (v0 vN : K) : Solver K :=
  ⟨applyMatOn (touches D marker) [(lo, v0), (hi, vN)] (stiffnessOn eps D sh),
    applyVecOn (touches D marker) [(lo, v0), (hi, vN)] (loadOn D sh N 0), [(lo, v0), (hi, vN)]⟩

theorem createOn_eq {eps : K} {d : List (String × Int × Val K)} (h1 : d.lookup "rmin" = some (lo, .num v0))
    (h2 : d.lookup "rmax" = some (hi, .num vN)) : createOn eps D sh N marker d = .ok (madeOn eps D sh N marker lo hi v0 vN) := by
  unfold createOn bcs2D getBC
  rw [h1, h2]
  rfl

theorem row_eq (eps : K) (i j : Nat) : (madeOn eps D sh N marker lo hi v0 vN).A i j =
    if touches D marker hi i ∨ touches D marker lo i then (if i = j then 1 else 0) else stiffnessOn eps D sh i j := by
  simp only [madeOn, applyMatOn, List.foldl_cons, List.foldl_nil]
  by_cases h1 : touches D marker hi i = true <;> by_cases h2 : touches D marker lo i = true <;> simp [h1, h2]

theorem rhs_length (touch : Int → Nat → Bool) (bcs : List (BC K)) (b : List K) : (applyVecOn touch bcs b).length = b.length := by
  unfold applyVecOn
  induction bcs generalizing b with
  | nil => rfl
  | cons bc bcs ih => rw [List.foldl_cons, ih]; simp

theorem rhs_eq {b : List K} {i : Nat} (hi' : i < b.length) :
    (applyVecOn (touches D marker) [(lo, v0), (hi, vN)] b).getD i 0 =
    if touches D marker hi i then vN else if touches D marker lo i then v0 else b.getD i 0 := by
  simp only [applyVecOn, List.foldl_cons, List.foldl_nil, List.getD_eq_getElem?_getD, List.getElem?_mapIdx]
  rw [List.getElem?_eq_getElem hi']
  simp

/-- What the equations say. -/
theorem solves_iff {eps : K} {Q U : List K} (hQ : Q.length = N + 1) :
    Solves N (madeOn eps D sh N marker lo hi v0 vN).A (applyVecOn (touches D marker) [(lo, v0), (hi, vN)] Q) U ↔
    U.length = N + 1 ∧ ∀ i ≤ N, (OnSide D marker hi i → U.getD i 0 = vN) ∧
      (OnSide D marker lo i → ¬ OnSide D marker hi i → U.getD i 0 = v0) ∧
      (¬ OnSide D marker lo i → ¬ OnSide D marker hi i →
        ∑ j ∈ Finset.range (N + 1), stiffnessOn eps D sh i j * U.getD j 0 = Q.getD i 0) := by
  unfold Solves
  refine and_congr_right fun _ => forall_congr' fun i => forall_congr' fun hi' => ?_
  rw [rhs_eq (by omega)]
  simp only [row_eq]
  simp only [← touches_iff]
  have hd : ∑ j ∈ Finset.range (N + 1), (if i = j then 1 else 0) * U.getD j 0 = U.getD i 0 := by
    rw [Finset.sum_eq_single_of_mem i (Finset.mem_range.2 (by omega))]
    · simp
    · intro j _ hj
      rw [if_neg (Ne.symm hj), zero_mul]
  by_cases h1 : touches D marker hi i = true <;> by_cases h2 : touches D marker lo i = true
  all_goals simp only [h1, h2, true_or, or_true, or_self, if_true, if_false, Bool.false_eq_true, hd, not_true_eq_false, not_false_eq_true,
    false_implies, true_implies, and_true, true_and]

/-- A square system without solutions of the homogeneous system has a solution for every right-hand side. -/
theorem solvable {A : Nat → Nat → K}
    (h : ∀ u : Nat → K, (∀ i ≤ N, ∑ j ∈ Finset.range (N + 1), A i j * u j = 0) → ∀ i ≤ N, u i = 0)
    (b : List K) : ∃ U, Solves N A b U := by
  let T : (Fin (N + 1) → K) →ₗ[K] (Fin (N + 1) → K) :=
    { toFun := fun u i => ∑ j : Fin (N + 1), A i j * u j
      map_add' := fun u v => by funext i; simp only [Pi.add_apply, mul_add, Finset.sum_add_distrib]
      map_smul' := fun a u => by
        funext i
        simp only [Pi.smul_apply, smul_eq_mul, RingHom.id_apply, Finset.mul_sum]
        exact Finset.sum_congr rfl fun j _ => by ring }
  have hinj : Function.Injective T := by
    rw [← LinearMap.ker_eq_bot, LinearMap.ker_eq_bot']
    intro u hu
    funext i
    have := h (fun k => if hk : k < N + 1 then u ⟨k, hk⟩ else 0) (fun k hk => by
      have := congrFun hu ⟨k, by omega⟩
      rw [Finset.sum_range]
      refine Eq.trans (Finset.sum_congr rfl fun j _ => ?_) this
      dsimp only
      rw [dif_pos j.2]) i (by omega)
    rw [dif_pos i.2] at this
    exact this
  obtain ⟨u, hu⟩ := (LinearMap.injective_iff_surjective.1 hinj) (fun i => b.getD i 0)
  refine ⟨List.ofFn u, by simp, fun i hi => ?_⟩
  have := congrFun hu ⟨i, by omega⟩
  rw [Finset.sum_range]
  simp only [T, LinearMap.coe_mk, AddHom.coe_mk] at this
  rw [← this]
  refine Finset.sum_congr rfl fun j _ => ?_
  rw [List.getD_eq_getElem?_getD, List.getElem?_eq_getElem (by simp; omega)]
  simp only [List.getElem_ofFn, Option.getD_some, Fin.eta]

end

end Poisson

section
variable {D : DMesh K g} {sh : Shape K g} {N : Nat} {marker : Int → Int} {lo hi : Int} {v0 vN eps : K}
  {d : List (String × Int × Val K)}

theorem side_le (hm : Meshed D sh N) {tag : Int} {i : Nat} (h : OnSide D marker tag i) : i ≤ N := by
  obtain ⟨c, hc, k, F, -, -, -, j, -, hj⟩ := h
  exact hm.range c hc i (List.mem_of_getElem? hj)

theorem sides_vanish {phi phi' : Nat → K} (h : Sides D marker lo hi v0 vN phi) (h' : Sides D marker lo hi v0 vN phi') :
    Vanishes D marker lo hi (fun i => phi i + -1 * phi' i) := by
  intro i hi'
  dsimp only
  by_cases h2 : OnSide D marker hi i
  · rw [h.high i h2, h'.high i h2]; ring
  · have h1 := hi'.resolve_right h2
    rw [h.low i h1 h2, h'.low i h1 h2]; ring

theorem form_smul_left (eps a : K) (u w : Nat → K) : form eps D sh (fun i => a * u i) w = a * form eps D sh u w := by
  unfold form pairing
  rw [← List.sum_map_mul_left]
  congr 1
  refine List.map_congr_left fun c _ => ?_
  dsimp only
  rw [gradIn_smul]
  have : dot (fun d => a * gradIn sh c u d) (gradIn sh c w) = a * dot (gradIn sh c u) (gradIn sh c w) := by
    simp only [dot, Finset.mul_sum, mul_assoc]
  rw [this]
  ring

theorem homogeneous (he : 0 < eps) (hm : Meshed D sh N)
    (hl : ∀ i ≤ N, Linked D (fun i => OnSide D marker lo i ∨ OnSide D marker hi i) i) {u : Nat → K}
    (hs : ∀ i, OnSide D marker lo i ∨ OnSide D marker hi i → u i = 0)
    (h : ∀ i ≤ N, ¬ OnSide D marker lo i → ¬ OnSide D marker hi i →
      ∑ j ∈ Finset.range (N + 1), stiffnessOn eps D sh i j * u j = 0) : ∀ i ≤ N, u i = 0 := by
  have hz : form eps D sh u u = 0 := by
    rw [← form_eq hm]
    refine Finset.sum_eq_zero fun i hi' => ?_
    by_cases hi2 : OnSide D marker lo i ∨ OnSide D marker hi i
    · rw [hs i hi2, zero_mul]
    · rw [not_or] at hi2
      rw [h i (by have := Finset.mem_range.1 hi'; omega) hi2.1 hi2.2, mul_zero]
  exact fun i hi => form_definite hm he hz hs (hl i hi)

/-- C94.  On every triangulation, in any dimension, on which every vertex is connected with a side at which the
potential is given: the solver is made, its equations have exactly one solution for any charges `Q`, and the solution
has the given values at the sides and obeys Gauss's law, tested with all functions that are linear in each cell and
zero at the sides. -/
theorem C94_potential (he : 0 < eps) (hm : Meshed D sh N)
    (hl : ∀ i ≤ N, Linked D (fun i => OnSide D marker lo i ∨ OnSide D marker hi i) i)
    (h1 : d.lookup "rmin" = some (lo, .num v0)) (h2 : d.lookup "rmax" = some (hi, .num vN)) :
    ∃ s, createOn eps D sh N marker d = .ok s ∧ ∀ Q : List K, Q.length = N + 1 →
      (∃! U, Solves N s.A (applyVecOn (touches D marker) s.bcs Q) U) ∧
      ∀ U, Solves N s.A (applyVecOn (touches D marker) s.bcs Q) U →
        ∃ F, negEOn D sh U = D.cells.map F ∧
          Electrostatics eps D sh.vol N marker lo hi v0 vN (fun i => Q.getD i 0) (fun i => U.getD i 0) F := by
  refine ⟨_, createOn_eq h1 h2, fun Q hQ => ⟨?_, fun U hU => ?_⟩⟩
  · have hom : ∀ u : Nat → K, (∀ i ≤ N, ∑ j ∈ Finset.range (N + 1), (madeOn eps D sh N marker lo hi v0 vN).A i j * u j = 0) →
        ∀ i ≤ N, u i = 0 := by
      intro u hu
      have hside : ∀ i ≤ N, OnSide D marker lo i ∨ OnSide D marker hi i → u i = 0 := by
        intro i hiN hi'
        have := hu i hiN
        simp only [row_eq, touches_iff, hi'.symm, if_true] at this
        rw [Finset.sum_eq_single_of_mem i (Finset.mem_range.2 (by omega))] at this
        · simpa using this
        · intro j _ hj
          rw [if_neg (Ne.symm hj), zero_mul]
      have key := homogeneous (u := fun i => if i ≤ N then u i else 0) (sh := sh) he hm hl (fun i hi' => by
        split
        · rename_i hiN; exact hside i hiN hi'
        · rfl) (fun i hiN n1 n2 => by
        have := hu i hiN
        simp only [row_eq, touches_iff, n1, n2, or_self, if_false] at this
        refine Eq.trans (Finset.sum_congr rfl fun j hj => ?_) this
        rw [if_pos (by have := Finset.mem_range.1 hj; omega)])
      intro i hiN
      have := key i hiN
      rwa [if_pos hiN] at this
    obtain ⟨U, hU⟩ := solvable hom (applyVecOn (touches D marker) (madeOn eps D sh N marker lo hi v0 vN).bcs Q)
    refine ⟨U, hU, fun U' hU' => ?_⟩
    refine List.ext_getElem (hU'.1.trans hU.1.symm) fun i hi1 hi2 => ?_
    have := hom (fun j => U'.getD j 0 - U.getD j 0) (fun i hi => by
      have e1 := hU.2 i hi
      have e2 := hU'.2 i hi
      simp only [mul_sub, Finset.sum_sub_distrib]
      rw [e1, e2, sub_self]) i (by have := hU'.1; omega)
    have := sub_eq_zero.1 this
    simpa [List.getD_eq_getElem?_getD, List.getElem?_eq_getElem, hi1, hi2] using this
  · obtain ⟨hlen, hU⟩ := (solves_iff hQ).1 hU
    refine ⟨fun c => gradIn sh c (fun i => U.getD i 0), rfl, ⟨?_, ?_⟩, fun c hc => isGrad_gradIn hm hc _, ?_⟩
    · intro i h3 h4
      exact (hU i (side_le hm h3)).2.1 h3 h4
    · intro i h3
      exact (hU i (side_le hm h3)).1 h3
    · intro v G hv hG
      rw [pairing_congr (F' := fun c => gradIn sh c (fun i => U.getD i 0)) (G' := fun c => gradIn sh c v) (fun c _ => rfl)
        (fun c hc => isGrad_unique hm hc (hG c hc) (isGrad_gradIn hm hc v))]
      show form eps D sh _ _ = _
      rw [← form_eq hm]
      refine Finset.sum_congr rfl fun i hi' => ?_
      by_cases h5 : OnSide D marker lo i ∨ OnSide D marker hi i
      · rw [hv i h5]; ring
      · rw [not_or] at h5
        rw [(hU i (by have := Finset.mem_range.1 hi'; omega)).2.2 h5.1 h5.2]
        ring

/-- C94.  There is only one potential with these properties. -/
theorem C94_unique (he : 0 < eps) (hm : Meshed D sh N)
    (hl : ∀ i ≤ N, Linked D (fun i => OnSide D marker lo i ∨ OnSide D marker hi i) i) {Q phi phi' : Nat → K}
    {F F' : DSimplex K → Vec K g} (h : Electrostatics eps D sh.vol N marker lo hi v0 vN Q phi F)
    (h' : Electrostatics eps D sh.vol N marker lo hi v0 vN Q phi' F') :
    (∀ i ≤ N, phi i = phi' i) ∧ ∀ c ∈ D.cells, F c = F' c := by
  have hF : ∀ c ∈ D.cells, F c = gradIn sh c phi := fun c hc => isGrad_unique hm hc (h.gradient c hc) (isGrad_gradIn hm hc _)
  have hF' : ∀ c ∈ D.cells, F' c = gradIn sh c phi' := fun c hc => isGrad_unique hm hc (h'.gradient c hc) (isGrad_gradIn hm hc _)
  have hv := sides_vanish h.sides h'.sides
  have e1 := h.gauss _ (fun c => gradIn sh c _) hv (fun c hc => isGrad_gradIn hm hc _)
  have e2 := h'.gauss _ (fun c => gradIn sh c _) hv (fun c hc => isGrad_gradIn hm hc _)
  rw [pairing_congr hF (fun c _ => rfl)] at e1
  rw [pairing_congr hF' (fun c _ => rfl)] at e2
  change form eps D sh phi _ = _ at e1
  change form eps D sh phi' _ = _ at e2
  have hz : form eps D sh (fun i => phi i + -1 * phi' i) (fun i => phi i + -1 * phi' i) = 0 := by
    rw [form_add_left, form_smul_left, e1, e2]
    ring
  have hall : ∀ i ≤ N, phi i = phi' i := by
    intro i hi
    have := form_definite hm he hz hv (hl i hi)
    linear_combination this
  refine ⟨hall, fun c hc => ?_⟩
  rw [hF c hc, hF' c hc]
  funext e
  refine Finset.sum_congr rfl fun k hk => ?_
  rw [hall _ (hm.range c hc _ (vert_eq (hm.corners c hc) (Finset.mem_range.1 hk)))]

/-- C94.  Of all potentials with the given values at the sides it is the one with the least energy. -/
theorem C94_energy (he : 0 < eps) (hm : Meshed D sh N)
    (hl : ∀ i ≤ N, Linked D (fun i => OnSide D marker lo i ∨ OnSide D marker hi i) i) {Q phi psi : Nat → K}
    {F G : DSimplex K → Vec K g} (h : Electrostatics eps D sh.vol N marker lo hi v0 vN Q phi F)
    (hs : Sides D marker lo hi v0 vN psi) (hG : ∀ c ∈ D.cells, IsGrad D c psi (G c)) :
    energy eps D sh.vol N Q phi F ≤ energy eps D sh.vol N Q psi G ∧
    (energy eps D sh.vol N Q phi F = energy eps D sh.vol N Q psi G → ∀ i ≤ N, psi i = phi i) := by
  have hF : ∀ c ∈ D.cells, F c = gradIn sh c phi := fun c hc => isGrad_unique hm hc (h.gradient c hc) (isGrad_gradIn hm hc _)
  have hG' : ∀ c ∈ D.cells, G c = gradIn sh c psi := fun c hc => isGrad_unique hm hc (hG c hc) (isGrad_gradIn hm hc _)
  have hv := sides_vanish hs h.sides
  have e1 := h.gauss _ (fun c => gradIn sh c _) hv (fun c hc => isGrad_gradIn hm hc _)
  rw [pairing_congr hF (fun c _ => rfl)] at e1
  change form eps D sh phi _ = _ at e1
  unfold energy
  rw [pairing_congr hF hF, pairing_congr hG' hG']
  change form eps D sh phi phi / 2 - _ ≤ form eps D sh psi psi / 2 - _ ∧ (form eps D sh phi phi / 2 - _ = form eps D sh psi psi / 2 - _ → _)
  have hnn := form_self_nonneg hm he (fun i => psi i + -1 * phi i)
  have e2 : form eps D sh (fun i => psi i + -1 * phi i) (fun i => psi i + -1 * phi i) =
      form eps D sh psi psi - 2 * form eps D sh phi psi + form eps D sh phi phi := by
    rw [form_add_left, form_smul_left, form_comm eps psi, form_comm eps phi, form_add_left, form_add_left, form_smul_left, form_smul_left,
      form_comm eps psi phi]
    ring
  have e3 : form eps D sh phi (fun i => psi i + -1 * phi i) = form eps D sh phi psi - form eps D sh phi phi := by
    rw [form_comm, form_add_left, form_smul_left, form_comm eps psi phi]
    ring
  have e4 : ∑ i ∈ Finset.range (N + 1), Q i * (psi i + -1 * phi i) =
      ∑ i ∈ Finset.range (N + 1), Q i * psi i - ∑ i ∈ Finset.range (N + 1), Q i * phi i := by
    rw [← Finset.sum_sub_distrib]
    exact Finset.sum_congr rfl fun i _ => by ring
  rw [e3, e4] at e1
  refine ⟨by linarith, fun heq i hi => ?_⟩
  have hz : form eps D sh (fun i => psi i + -1 * phi i) (fun i => psi i + -1 * phi i) = 0 := by linarith
  have := form_definite hm he hz hv (hl i hi)
  linear_combination this

/-- C94.  Every triangulation has such basis functions: their gradients are along the normals of the facets. -/
theorem C94_shape {hg : g ≤ 3} (ht : Triangulation hg D) (hN : ∀ c ∈ D.cells, ∀ v ∈ c.verts, v ≤ N) {vol : DSimplex K → K}
    (hv : ∀ c ∈ D.cells, 0 < vol c) : ∃ grad, Meshed D ⟨grad, vol⟩ N := by
  have h1 := ht.dim
  let other : Nat → Fin (g + 1) := fun k => if k = 0 then Fin.last g else 0
  have hother : ∀ k : Fin (g + 1), other k ≠ k := by
    intro k h
    have := congrArg Fin.val h
    simp only [other] at this
    split at this
    · simp only [Fin.val_last] at this; omega
    · simp only [Fin.val_zero] at this; omega
  let den : DSimplex K → Nat → K := fun c k => dot (cutNormal hg (c.normal k)) (D.coord ((c.verts[k]?).getD 0) - corner D c (other k))
  have sub : ∀ (n a b e : Vec K g), dot n (a - b) = dot n (a - e) - dot n (b - e) := by
    intro n a b e
    simp only [dot, Pi.sub_apply]
    rw [← Finset.sum_sub_distrib]
    exact Finset.sum_congr rfl fun i _ => by ring
  have comm : ∀ (n a b : Vec K g), dot n (a - b) = -dot n (b - a) := by
    intro n a b
    simp only [dot, Pi.sub_apply]
    rw [← Finset.sum_neg_distrib]
    exact Finset.sum_congr rfl fun i _ => by ring
  have self : ∀ (n a : Vec K g), dot n (a - a) = 0 := by
    intro n a; simp [dot]
  -- how far the corner `k` is from the others, along the normal `k`
  have hne : ∀ c ∈ D.cells, ∀ k : Fin (g + 1), den c k ≠ 0 := by
    intro c hc k
    have ho := hother k
    have hval : (other k).1 ≠ k.1 := fun h => ho (Fin.ext h)
    by_cases h2 : g = 1
    · have := ht.outward c hc k k (other k) (by unfold onFacet; rw [if_pos h2]) (by unfold onFacet; rw [if_pos h2]; exact hval)
      show dot _ (corner D c k - corner D c (other k)) ≠ 0
      rw [comm]
      exact (neg_pos.2 this).ne'
    · have := ht.outward c hc k (other k) k (by unfold onFacet; rw [if_neg h2]; exact hval) (by unfold onFacet; rw [if_neg h2]; simp)
      exact this.ne
  have hall : ∀ c ∈ D.cells, ∀ k j : Fin (g + 1), j ≠ k → dot (cutNormal hg (c.normal k)) (corner D c k - corner D c j) = den c k := by
    intro c hc k j hj
    by_cases hj2 : j = other k
    · rw [hj2]; rfl
    · show _ = dot _ (corner D c k - corner D c (other k))
      rw [sub _ _ (corner D c j) (corner D c (other k))]
      have hjv : j.1 ≠ k.1 := fun h => hj (Fin.ext h)
      have hov : (other k).1 ≠ k.1 := fun h => hother k (Fin.ext h)
      have hjo : j.1 ≠ (other k).1 := fun h => hj2 (Fin.ext h)
      have h2 : g ≠ 1 := by
        rintro rfl
        omega
      rw [ht.perp c hc k (other k) j (by unfold onFacet; rw [if_neg h2]; exact hov) (by unfold onFacet; rw [if_neg h2]; exact hjv), sub_zero]
  have mulc : ∀ (n a : Vec K g) (e : K), dot (fun i => n i / e) a = dot n a / e := by
    intro n a e
    simp only [dot, div_eq_mul_inv, Finset.sum_mul]
    exact Finset.sum_congr rfl fun i _ => by ring
  refine ⟨fun c k i => cutNormal hg (c.normal k) i / den c k, ht.corners, hN, fun c hc k j => ?_, hv⟩
  have hd := hne c hc k
  show dot (fun i => cutNormal hg (c.normal k) i / den c k) _ = _
  rw [mulc]
  by_cases hj : j = k
  · subst hj
    by_cases h0 : j = 0
    · subst h0; rw [self]; simp
    · rw [hall c hc j 0 (Ne.symm h0), div_self hd, if_pos rfl, if_neg h0, sub_zero]
  · rw [if_neg (Ne.symm hj)]
    by_cases h0 : k = 0
    · subst h0
      rw [comm, hall c hc 0 j hj, neg_div, div_self hd, if_pos rfl, zero_sub]
    · rw [if_neg h0, sub _ _ _ (corner D c k), comm, hall c hc k j hj, comm _ (corner D c 0), hall c hc k 0 (Ne.symm h0)]
      simp

/-- C94.  A potential at a side that is not a number is not accepted: 'unset' raises TypeError here. -/
theorem C94_false_unset (h1 : d.lookup "rmin" = some (lo, .unset)) {v : Int × Val K} (h2 : d.lookup "rmax" = some v) :
    createOn eps D sh N marker d = .error .type := by
  unfold createOn bcs2D getBC
  rw [h1, h2]
  rfl

/-- C94.  If the tags in `phi_BCs` are not those of the mesh the solver is made without a message, and no right-hand
side has just one solution. -/
theorem C94_false_unmarked (hm : Meshed D sh N) (hlo : ∀ i, ¬ OnSide D marker lo i) (hhi : ∀ i, ¬ OnSide D marker hi i)
    (h1 : d.lookup "rmin" = some (lo, .num v0)) (h2 : d.lookup "rmax" = some (hi, .num vN)) :
    ∃ s, createOn eps D sh N marker d = .ok s ∧ ∀ b : List K, ¬ ∃! U, Solves N s.A b U := by
  refine ⟨_, createOn_eq h1 h2, ?_⟩
  rintro b ⟨U, hU, hu⟩
  have hz : ∀ i, ∑ j ∈ Finset.range (N + 1), stiffnessOn eps D sh i j = 0 := by
    intro i
    have : ∀ c ∈ D.cells, gradIn sh c (fun _ => 1) = 0 := fun c hc =>
      isGrad_unique hm hc (isGrad_gradIn hm hc _) (fun j => by simp [dot])
    have e : ∑ j ∈ Finset.range (N + 1), stiffnessOn eps D sh i j = form eps D sh (fun _ => 1) (unit i) := by
      unfold form pairing stiffnessOn
      have list_sum : ∀ (l : List (DSimplex K)) (S : Finset Nat) (f : Nat → DSimplex K → K),
          ∑ i ∈ S, (l.map (f i)).sum = (l.map (fun c => ∑ i ∈ S, f i c)).sum := by
        intro l S f
        induction l with
        | nil => simp
        | cons c l ih => simp only [List.map_cons, List.sum_cons, Finset.sum_add_distrib, ih]
      rw [list_sum]
      congr 1
      refine List.map_congr_left fun c hc => ?_
      rw [← Finset.sum_mul, ← Finset.mul_sum]
      congr 2
      unfold dot
      rw [Finset.sum_comm]
      refine Finset.sum_congr rfl fun e _ => ?_
      dsimp only
      rw [← Finset.sum_mul, gradIn_eq hm hc (fun _ => 1)]
      simp
    rw [e]
    unfold form pairing
    refine List.sum_eq_zero fun a ha => ?_
    obtain ⟨c, hc, rfl⟩ := List.mem_map.1 ha
    dsimp only
    rw [this c hc]
    simp [dot]
  have hA : ∀ i j, (madeOn eps D sh N marker lo hi v0 vN).A i j = stiffnessOn eps D sh i j := by
    intro i j
    rw [row_eq]
    simp [touches_iff, hlo, hhi]
  have h2 : Solves N (madeOn eps D sh N marker lo hi v0 vN).A b (U.map (· + 1)) := by
    refine ⟨by simp [hU.1], fun i hi' => ?_⟩
    rw [← hU.2 i hi']
    have : ∀ j ∈ Finset.range (N + 1), (madeOn eps D sh N marker lo hi v0 vN).A i j * (U.map (· + 1)).getD j 0 =
        (madeOn eps D sh N marker lo hi v0 vN).A i j * U.getD j 0 + stiffnessOn eps D sh i j := by
      intro j hj
      have : j < U.length := by have := Finset.mem_range.1 hj; have := hU.1; omega
      rw [hA]
      simp only [List.getD_eq_getElem?_getD, List.getElem?_map, List.getElem?_eq_getElem this, Option.map_some, Option.getD_some]
      ring
    rw [Finset.sum_congr rfl this, Finset.sum_add_distrib, hz, add_zero]
  have h3 := hu _ h2
  have hlen := hU.1
  have h4 := congrArg (fun l => l.getD 0 0) h3
  simp only [List.getD_eq_getElem?_getD, List.getElem?_map, List.getElem?_eq_getElem (show 0 < U.length by omega), Option.map_some,
    Option.getD_some] at h4
  linarith

end

/-! ### The range of the potential (C95) -/

/-- No angle between facets is obtuse. -/
def Spec.NotObtuse (D : DMesh K g) (sh : Shape K g) : Prop :=
  ∀ c ∈ D.cells, ∀ k l : Fin (g + 1), k ≠ l → dot (sh.grad c k) (sh.grad c l) ≤ 0

section
variable {D : DMesh K g} {sh : Shape K g} {N : Nat} {marker : Int → Int} {lo hi : Int} {v0 vN eps : K}

theorem grads_zero (hm : Meshed D sh N) {c : DSimplex K} (hc : c ∈ D.cells) (e : Fin g) :
    ∑ k : Fin (g + 1), sh.grad c k e = 0 := by
  have h : gradIn sh c (fun _ => 1) = 0 := isGrad_unique hm hc (isGrad_gradIn hm hc _) (fun j => by simp [dot])
  have := congrFun h e
  simp only [gradIn, one_mul, Finset.sum_range] at this
  exact this

theorem cross_term (hm : Meshed D sh N) (ha : NotObtuse D sh) {c : DSimplex K} (hc : c ∈ D.cells) {w v : Nat → K}
    (h : ∀ i j, 0 ≤ (w i - w j) * (v i - v j)) : 0 ≤ dot (gradIn sh c w) (gradIn sh c v) := by
  let a : Fin (g + 1) → K := fun k => w (c.verts.getD k 0)
  let b : Fin (g + 1) → K := fun k => v (c.verts.getD k 0)
  let G : Fin (g + 1) → Fin (g + 1) → K := fun k l => dot (sh.grad c k) (sh.grad c l)
  have e1 : dot (gradIn sh c w) (gradIn sh c v) = ∑ k, ∑ l, a k * b l * G k l := by
    have : ∀ e, gradIn sh c w e * gradIn sh c v e = ∑ k : Fin (g + 1), ∑ l : Fin (g + 1), a k * b l * (sh.grad c k e * sh.grad c l e) := by
      intro e
      unfold gradIn
      rw [Finset.sum_range, Finset.sum_range, Finset.sum_mul_sum]
      refine Finset.sum_congr rfl fun k _ => Finset.sum_congr rfl fun l _ => ?_
      simp only [a, b]
      ring
    simp only [dot, G, Finset.mul_sum, this]
    rw [Finset.sum_comm]
    refine Finset.sum_congr rfl fun k _ => ?_
    rw [Finset.sum_comm]
  have r1 : ∀ k, ∑ l, G k l = 0 := by
    intro k
    simp only [G, dot]
    rw [Finset.sum_comm]
    refine Finset.sum_eq_zero fun e _ => ?_
    rw [← Finset.mul_sum, grads_zero hm hc, mul_zero]
  have r2 : ∀ l, ∑ k, G k l = 0 := by
    intro l
    simp only [G, dot]
    rw [Finset.sum_comm]
    refine Finset.sum_eq_zero fun e _ => ?_
    rw [← Finset.sum_mul, grads_zero hm hc, zero_mul]
  have sym : ∀ k l, G k l = G l k := fun k l => by simp only [G, dot, mul_comm]
  have e2 : ∑ k, ∑ l, (a k - a l) * (b k - b l) * G k l = -2 * ∑ k, ∑ l, a k * b l * G k l := by
    have x1 : ∑ k, ∑ l, a k * b k * G k l = 0 := Finset.sum_eq_zero fun k _ => by rw [← Finset.mul_sum, r1, mul_zero]
    have x2 : ∑ k, ∑ l, a l * b l * G k l = 0 := by
      rw [Finset.sum_comm]
      exact Finset.sum_eq_zero fun k _ => by rw [← Finset.mul_sum, r2, mul_zero]
    have x3 : ∑ k, ∑ l, a l * b k * G k l = ∑ k, ∑ l, a k * b l * G k l := by
      rw [Finset.sum_comm]
      exact Finset.sum_congr rfl fun k _ => Finset.sum_congr rfl fun l _ => by rw [sym]
    have x4 : ∑ k, ∑ l, (a k - a l) * (b k - b l) * G k l = ∑ k, ∑ l, a k * b k * G k l - ∑ k, ∑ l, a k * b l * G k l -
        ∑ k, ∑ l, a l * b k * G k l + ∑ k, ∑ l, a l * b l * G k l := by
      simp only [← Finset.sum_sub_distrib, ← Finset.sum_add_distrib]
      exact Finset.sum_congr rfl fun k _ => Finset.sum_congr rfl fun l _ => by ring
    rw [x4, x1, x2, x3]
    ring
  have e3 : ∑ k, ∑ l, (a k - a l) * (b k - b l) * G k l ≤ 0 := by
    refine Finset.sum_nonpos fun k _ => Finset.sum_nonpos fun l _ => ?_
    by_cases hkl : k = l
    · subst hkl; simp
    · exact mul_nonpos_of_nonneg_of_nonpos (h _ _) (ha c hc k l hkl)
  rw [e1]
  linarith

theorem range_above (he : 0 < eps) (hm : Meshed D sh N) (ha : NotObtuse D sh)
    (hl : ∀ i ≤ N, Linked D (fun i => OnSide D marker lo i ∨ OnSide D marker hi i) i) {Q phi : Nat → K}
    {F : DSimplex K → Vec K g} (h : Electrostatics eps D sh.vol N marker lo hi v0 vN Q phi F)
    (hQ : ∀ i ≤ N, Q i ≤ 0) {M : K} (h0 : v0 ≤ M) (hN : vN ≤ M) : ∀ i ≤ N, phi i ≤ M := by
  have hF : ∀ c ∈ D.cells, F c = gradIn sh c phi := fun c hc => isGrad_unique hm hc (h.gradient c hc) (isGrad_gradIn hm hc _)
  let v : Nat → K := fun i => max (phi i - M) 0
  let w : Nat → K := fun i => min (phi i) M
  have hv : Vanishes D marker lo hi v := by
    intro i hi'
    have : phi i ≤ M := by
      by_cases h2 : OnSide D marker hi i
      · rw [h.sides.high i h2]; exact hN
      · rw [h.sides.low i (hi'.resolve_right h2) h2]; exact h0
    exact max_eq_right (by linarith)
  have hsum : phi = fun i => w i + v i := by
    funext i
    simp only [w, v]
    rcases le_total (phi i) M with h1 | h1
    · rw [min_eq_left h1, max_eq_right (by linarith)]; ring
    · rw [min_eq_right h1, max_eq_left (by linarith)]; ring
  have e1 := h.gauss v (fun c => gradIn sh c v) hv (fun c hc => isGrad_gradIn hm hc _)
  rw [pairing_congr hF (fun c _ => rfl)] at e1
  change form eps D sh phi v = _ at e1
  rw [hsum, form_add_left] at e1
  have hw : 0 ≤ form eps D sh w v := by
    unfold form pairing
    refine List.sum_nonneg fun a ha' => ?_
    obtain ⟨c, hc, rfl⟩ := List.mem_map.1 ha'
    have h1 := hm.vol c hc
    have h2 := cross_term (w := w) (v := v) hm ha hc (fun i j => by
      simp only [w, v]
      rcases le_total (phi i) M with h1 | h1 <;> rcases le_total (phi j) M with h2 | h2
      · rw [max_eq_right (by linarith), max_eq_right (by linarith)]; simp
      · rw [min_eq_left h1, max_eq_right (by linarith), min_eq_right h2, max_eq_left (by linarith)]; nlinarith
      · rw [min_eq_right h1, max_eq_left (by linarith), min_eq_left h2, max_eq_right (by linarith)]; nlinarith
      · rw [min_eq_right h1, min_eq_right h2]; simp)
    positivity
  have hq : ∑ i ∈ Finset.range (N + 1), Q i * v i ≤ 0 :=
    Finset.sum_nonpos fun i hi' => mul_nonpos_of_nonpos_of_nonneg (hQ i (by have := Finset.mem_range.1 hi'; omega)) (le_max_right _ _)
  have hz : form eps D sh v v = 0 := le_antisymm (by linarith) (form_self_nonneg hm he v)
  intro i hi'
  have := form_definite hm he hz hv (hl i hi')
  have h3 : phi i - M ≤ 0 := by rw [← this]; exact le_max_left _ _
  linarith

/-- C95.  On a triangulation without obtuse angles the potential without charge lies between the potentials of the
sides; with charge of one sign only it does not exceed the one bound. -/
theorem C95_range_partial (he : 0 < eps) (hm : Meshed D sh N) (ha : NotObtuse D sh)
    (hl : ∀ i ≤ N, Linked D (fun i => OnSide D marker lo i ∨ OnSide D marker hi i) i) {Q phi : Nat → K}
    {F : DSimplex K → Vec K g} (h : Electrostatics eps D sh.vol N marker lo hi v0 vN Q phi F) :
    ((∀ i ≤ N, Q i ≤ 0) → ∀ i ≤ N, phi i ≤ max v0 vN) ∧ ((∀ i ≤ N, 0 ≤ Q i) → ∀ i ≤ N, min v0 vN ≤ phi i) := by
  refine ⟨fun hQ => range_above he hm ha hl h hQ (le_max_left _ _) (le_max_right _ _), fun hQ i hi' => ?_⟩
  -- turn the sign of everything
  have hneg : Electrostatics eps D sh.vol N marker lo hi (-v0) (-vN) (fun i => -Q i) (fun i => -phi i) (fun c => -F c) := by
    refine ⟨⟨fun i h1 h2 => by rw [h.sides.low i h1 h2], fun i h1 => by rw [h.sides.high i h1]⟩, fun c hc j => ?_, fun v G hv hG => ?_⟩
    · have := h.gradient c hc j
      have e : dot (-F c) (corner D c j - corner D c 0) = -dot (F c) (corner D c j - corner D c 0) := by
        simp only [dot, Pi.neg_apply, neg_mul, Finset.sum_neg_distrib]
      rw [e, this]
      ring
    · have := h.gauss v G hv hG
      have e : pairing eps D sh.vol (fun c => -F c) G = -pairing eps D sh.vol F G := by
        unfold pairing
        rw [← neg_one_mul, ← List.sum_map_mul_left]
        congr 1
        refine List.map_congr_left fun c _ => ?_
        have : dot (-F c) (G c) = -dot (F c) (G c) := by simp only [dot, Pi.neg_apply, neg_mul, Finset.sum_neg_distrib]
        rw [this]
        ring
      rw [e, this, ← Finset.sum_neg_distrib]
      exact Finset.sum_congr rfl fun i _ => by ring
  have := range_above he hm ha hl hneg (fun i hi => neg_nonpos.2 (hQ i hi)) (M := -min v0 vN)
    (neg_le_neg (min_le_left _ _)) (neg_le_neg (min_le_right _ _)) i hi'
  exact neg_le_neg_iff.1 this

end

/-! ### Two triangles, with or without an obtuse angle -/

def kiteGrad (obtuse : Bool) (index : Int) (k : Nat) : Vec ℚ 2 :=
  match index, k with
  | 0, 0 => ![1 / 2, -1 / 2]
  | 0, 1 => ![0, 1]
  | 0, _ => ![-1 / 2, -1 / 2]
  | _, 0 => if obtuse then ![1 / 2, -1 / 2] else ![1 / 2, 1 / 2]
  | _, 1 => if obtuse then ![-1 / 2, 3 / 2] else ![-1 / 2, 1 / 2]
  | _, _ => ![0, -1]

def kiteShape (b : Bool) : Shape ℚ 2 := ⟨fun c => kiteGrad b c.index, fun _ => 1⟩

def kiteCells (b : Bool) : List (DSimplex ℚ) :=
  [⟨0, [0, 1, 2], [0, 1, 2], fun k => ![-(kiteGrad b 0 k 0), -(kiteGrad b 0 k 1), 0]⟩,
   ⟨1, [0, 2, 3], [3, 4, 1], fun k => ![-(kiteGrad b 1 k 0), -(kiteGrad b 1 k 1), 0]⟩]

/-- Corners (2,0), (1,1), (0,0), and (-1,-1) or (1,-1). -/
def kite (b : Bool) : DMesh ℚ 2 where
  cells := kiteCells b
  coord v := if v = 0 then ![2, 0] else if v = 1 then ![1, 1] else if v = 2 then ![0, 0] else if b then ![-1, -1] else ![1, -1]
  attached F := if F = 1 then [0, 1] else if F = 0 ∨ F = 2 then [0] else if F = 3 ∨ F = 4 then [1] else []

/-- The facet from (2,0) to (1,1) has the tag 1, the facet from (1,1) to (0,0) the tag 2. -/
def kiteMarks (F : Int) : Int := if F = 2 then 1 else if F = 0 then 2 else 0

theorem kite_meshed (b : Bool) : Meshed (kite b) (kiteShape b) 3 := by
  refine ⟨?_, ?_, ?_, ?_⟩
  all_goals
    intro c hc
    simp only [kite, kiteCells, List.mem_cons, List.not_mem_nil, or_false] at hc
    rcases hc with rfl | rfl <;> cases b
  all_goals first | decide | (unfold kiteShape; decide +kernel)

theorem kite_linked (b : Bool) :
    ∀ i ≤ 3, Linked (kite b) (fun i => OnSide (kite b) kiteMarks 1 i ∨ OnSide (kite b) kiteMarks 2 i) i := by
  have h0 : touches (kite b) kiteMarks 1 0 = true := by cases b <;> decide
  have h1 : touches (kite b) kiteMarks 2 1 = true := by cases b <;> decide
  have h2 : touches (kite b) kiteMarks 2 2 = true := by cases b <;> decide
  rw [touches_iff] at h0 h1 h2
  intro i hi
  have l2 : Linked (kite b) (fun i => OnSide (kite b) kiteMarks 1 i ∨ OnSide (kite b) kiteMarks 2 i) 2 := .base (.inr h2)
  interval_cases i
  · exact .base (.inl h0)
  · exact .base (.inr h1)
  · exact l2
  · exact .step (c := (kiteCells b)[1]'(by simp [kiteCells])) (by simp [kite, kiteCells]) (by simp [kiteCells]) (by simp [kiteCells]) l2

def kiteBCs : List (String × Int × Val ℚ) := [("rmax", 2, .num 1), ("rmin", 1, .num 0)]

example (b : Bool) := C94_potential (eps := (1 : ℚ)) one_pos (kite_meshed b) (kite_linked b) (d := kiteBCs) rfl rfl

-- A charge of 2 at the free corner.
example : Solves 3 (madeOn 1 (kite false) (kiteShape false) 3 kiteMarks 1 2 0 1).A
    (applyVecOn (touches (kite false) kiteMarks) [(1, 0), (2, 1)] [0, 0, 0, 2]) [0, 1, 1, 5 / 2] := by
  refine ⟨rfl, ?_⟩
  decide +kernel

/-- C95.  With obtuse angles the potential without charge may leave the range of the potentials of the sides. -/
theorem C95_false_range : ∃ s, createOn (1 : ℚ) (kite true) (kiteShape true) 3 kiteMarks kiteBCs = .ok s ∧
    Solves 3 s.A s.b [0, 1, 1, 3 / 2] ∧ (max 0 1 : ℚ) < 3 / 2 := by
  refine ⟨_, createOn_eq (lo := 1) (hi := 2) (v0 := 0) (vN := 1) rfl rfl, ⟨rfl, ?_⟩, ?_⟩ <;> decide +kernel

theorem kite_notObtuse : NotObtuse (kite false) (kiteShape false) := by
  intro c hc
  simp only [kite, kiteCells, List.mem_cons, List.not_mem_nil, or_false] at hc
  rcases hc with rfl | rfl <;> (unfold kiteShape; decide +kernel)

example : ¬ NotObtuse (kite true) (kiteShape true) := by
  intro h
  have := h _ (by simp [kite, kiteCells] : (kiteCells true)[1] ∈ (kite true).cells) 0 2 (by decide)
  revert this
  decide +kernel

example : Solves 3 (madeOn 1 (kite false) (kiteShape false) 3 kiteMarks 1 2 0 1).A
    (applyVecOn (touches (kite false) kiteMarks) [(1, 0), (2, 1)] [0, 0, 0, 0]) [0, 1, 1, 1 / 2] := by
  refine ⟨rfl, ?_⟩
  decide +kernel

end Dt
