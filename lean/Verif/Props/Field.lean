import Verif.Lemmas.Field
import Verif.Props.Storage
import Mathlib.Algebra.Order.Ring.Rat
import Mathlib.Tactic.FieldSimp

/-!
# Properties of densities, fields and the source of the field solve (C33, C34, C47, C48, C51-C53)
-/

set_option linter.unusedSectionVars false

namespace Dt
namespace Fld
open Spec (share touching Fits contrib CellField Stores)
open SAP (Reachable)
variable {K : Type} [Field K] {α : Type}

/-! ### A concrete population: (cell, position, weight) in two cells [0,1], [1,2] with linear
elements -/

/-- (cell, position, weight) -/
abbrev Dep := Nat × ℚ × ℚ

def demoAttrs : Attrs ℚ Dep := ⟨fun p => p.1, fun p => p.2.2⟩
/-- Two cells sharing the middle DOF (numbered 2), hat functions. -/
def demoCG : Space ℚ Dep :=
  ⟨fun c => if c = 0 then [0, 2] else [2, 1], fun p => [(p.1 : ℚ) + 1 - p.2.1, p.2.1 - p.1]⟩
/-- One DOF per cell, numbered backwards. -/
def demoDG : Space ℚ Dep := ⟨fun c => if c = 0 then [1] else [0], fun _ => [1]⟩
def demoPop : List Dep := [(0, 1/4, 2), (1, 3/2, 4), (0, 1/2, 6)]
/-- The population stored with segments of length 2. -/
def demoStore : SAP Dep :=
  match (SAP.new 2 (0, 0, 0)).pushAll demoPop with
  | .ok (s, _) => s
  | .error _ => SAP.new 2 (0, 0, 0)

theorem pushAll_reachable {s t : SAP α} {xs : List α} {rs : List (Int × Int)} (hs : Reachable s)
    (e : s.pushAll xs = .ok (t, rs)) : Reachable t := by
  induction xs generalizing s rs with
  | nil =>
    simp only [SAP.pushAll, Except.ok.injEq, Prod.mk.injEq] at e
    exact e.1 ▸ hs
  | cons x xs ih =>
    simp only [SAP.pushAll, bind, Except.bind, pure, Except.pure] at e
    split at e
    · cases e
    · rename_i q hq
      split at e
      · cases e
      · rename_i q' hq'
        simp only [Except.ok.injEq, Prod.mk.injEq] at e
        obtain ⟨rfl, rfl⟩ := e
        exact ih (s := q.1) (Reachable.push hs (r := q.2) hq) hq'

theorem demoStore_eq : ∃ rs, (SAP.new 2 ((0, 0, 0) : Dep)).pushAll demoPop = .ok (demoStore, rs) := by
  obtain ⟨s, rs, e, _⟩ := C01_append_keeps_order 2 (by decide) ((0, 0, 0) : Dep) demoPop
  exact ⟨rs, by rw [e, demoStore, e]⟩

theorem demoStore_reachable : Reachable demoStore := by
  obtain ⟨rs, e⟩ := demoStore_eq
  exact pushAll_reachable (Reachable.new 2 _ (by decide)) e

theorem demoStore_stores : Stores demoStore demoPop := by
  obtain ⟨s, rs, e, h1, h2⟩ := C01_append_keeps_order 2 (by decide) ((0, 0, 0) : Dep) demoPop
  have : demoStore = s := by rw [demoStore, e]
  rw [this]
  exact ⟨h1, fun i hi => (h2 i hi).1⟩

theorem demo_fits : ∀ p ∈ demoPop, Fits demoAttrs demoCG 3 p := by
  intro p hp
  simp only [demoPop, List.mem_cons, List.not_mem_nil, or_false] at hp
  rcases hp with rfl | rfl | rfl <;> exact ⟨by decide, by decide, by decide⟩

theorem demo_one : ∀ p ∈ demoPop, (demoCG.basis p).sum = 1 := by decide +kernel

theorem demo_cell : CellField demoDG (fun k => 1 - k) 2 2 :=
  ⟨by decide, by decide, by decide⟩

/-! ### C33 -/

/-- C33 (exact form).  `accumulate_number_density` into a DOF field raises nothing, leaves the
particles as they are, and adds to every DOF value the sum over the stored particles of
weight times basis value. -/
theorem C33_deposit_exact {s : SAP α} (hr : Reachable s) {xs : List α} (hx : Stores s xs)
    {A : Attrs K α} {SD SC : Space K α} (vol : Nat → K) (n : Nat) (v : List K)
    (h : ∀ p ∈ xs, Fits A SD v.length p) :
    ∃ s' v', accumulate A SD SC vol n s (some v) none = .ok (s', (some v', none)) ∧
      Stores s' xs ∧ v'.length = v.length ∧
      ∀ j : Nat, (hj : j < v.length) → v'[j]? = some (v[j] + (xs.map (contrib A SD j)).sum) := by
  obtain ⟨c, e⟩ := accumulate_ok (SC := SC) hr hx vol n (some v) none
    (by rintro w hw; cases hw; exact h) (by rintro w hw; cases hw) (by rintro w hw; cases hw)
  have inv := SAP.reachable_inv hr
  refine ⟨_, depositAll A SD xs v, e, ?_, by simp, ?_⟩
  · rw [SAP.stores_iff (SAP.withCur_inv inv c), SAP.withCur_contents, ← SAP.stores_iff inv]
    exact hx
  · intro j hj
    simp [depositAll, hj]

/-- C33.  The total weight is conserved: the sum of the DOF values grows by the sum of the
weights of the stored particles. -/
theorem C33_conserves_weight {s : SAP α} (hr : Reachable s) {xs : List α} (hx : Stores s xs)
    {A : Attrs K α} {SD SC : Space K α} (vol : Nat → K) (n : Nat) (v : List K)
    (h : ∀ p ∈ xs, Fits A SD v.length p) (h1 : ∀ p ∈ xs, (SD.basis p).sum = 1) :
    ∃ s' v', accumulate A SD SC vol n s (some v) none = .ok (s', (some v', none)) ∧
      v'.sum = v.sum + (xs.map A.weight).sum := by
  obtain ⟨c, e⟩ := accumulate_ok (SC := SC) hr hx vol n (some v) none
    (by rintro w hw; cases hw; exact h) (by rintro w hw; cases hw) (by rintro w hw; cases hw)
  exact ⟨_, _, e, depositAll_sum h h1⟩

/-- C33.  The result depends neither on the order of the particles nor on the segment length. -/
theorem C33_order_independent {s t : SAP α} (hs : Reachable s) (ht : Reachable t) {xs ys : List α}
    (hx : Stores s xs) (hy : Stores t ys) (hp : xs.Perm ys)
    {A : Attrs K α} {SD SC : Space K α} (vol : Nat → K) (n : Nat) (v : List K)
    (h : ∀ p ∈ xs, Fits A SD v.length p) :
    ∃ s' t' v', accumulate A SD SC vol n s (some v) none = .ok (s', (some v', none)) ∧
      accumulate A SD SC vol n t (some v) none = .ok (t', (some v', none)) := by
  obtain ⟨c, e⟩ := accumulate_ok (SC := SC) hs hx vol n (some v) none
    (by rintro w hw; cases hw; exact h) (by rintro w hw; cases hw) (by rintro w hw; cases hw)
  obtain ⟨c', e'⟩ := accumulate_ok (A := A) (SD := SD) (SC := SC) ht hy vol n (some v) none
    (by rintro w hw; cases hw; intro p hq; exact h p (hp.mem_iff.2 hq))
    (by rintro w hw; cases hw) (by rintro w hw; cases hw)
  refine ⟨s.withCur c, t.withCur c', depositAll A SD xs v, e, ?_⟩
  rw [e']
  have : depositAll A SD ys v = depositAll A SD xs v := by
    unfold depositAll
    congr 1
    funext j x
    rw [(hp.map (contrib A SD j)).sum_eq]
  simp [this]

/-- C33.  Depositing two populations one after the other is depositing their union. -/
theorem C33_additive {s t u : SAP α} (hs : Reachable s) (ht : Reachable t) (hu : Reachable u)
    {xs ys : List α} (hx : Stores s xs) (hy : Stores t ys) (hxy : Stores u (xs ++ ys))
    {A : Attrs K α} {SD SC : Space K α} (vol : Nat → K) (n : Nat) (v : List K)
    (h : ∀ p ∈ xs ++ ys, Fits A SD v.length p) :
    ∃ s' t' u' v1 v2, accumulate A SD SC vol n s (some v) none = .ok (s', (some v1, none)) ∧
      accumulate A SD SC vol n t (some v1) none = .ok (t', (some v2, none)) ∧
      accumulate A SD SC vol n u (some v) none = .ok (u', (some v2, none)) := by
  obtain ⟨c, e⟩ := accumulate_ok (A := A) (SD := SD) (SC := SC) hs hx vol n (some v) none
    (by rintro w hw; cases hw; intro p hq; exact h p (by simp [hq]))
    (by rintro w hw; cases hw) (by rintro w hw; cases hw)
  obtain ⟨c', e'⟩ := accumulate_ok (A := A) (SD := SD) (SC := SC) ht hy vol n
    (some (depositAll A SD xs v)) none
    (by rintro w hw; cases hw; intro p hq; rw [depositAll_length]; exact h p (by simp [hq]))
    (by rintro w hw; cases hw) (by rintro w hw; cases hw)
  obtain ⟨c'', e''⟩ := accumulate_ok (A := A) (SD := SD) (SC := SC) hu hxy vol n (some v) none
    (by rintro w hw; cases hw; exact h) (by rintro w hw; cases hw) (by rintro w hw; cases hw)
  refine ⟨s.withCur c, t.withCur c', u.withCur c'', depositAll A SD xs v,
    depositAll A SD ys (depositAll A SD xs v), e, e', ?_⟩
  rw [e'']
  have : depositAll A SD (xs ++ ys) v = depositAll A SD ys (depositAll A SD xs v) := by
    simp [depositAll, mapIdx_comp, add_assoc]
  simp [this]

-- The demo population meets the hypotheses; total weight 12 is distributed.
example : ∃ s' v', accumulate demoAttrs demoCG demoDG (fun _ => 1) 2 demoStore (some [0, 0, 0]) none
    = .ok (s', (some v', none)) ∧ v'.sum = 12 := by
  obtain ⟨s', v', e, h⟩ := C33_conserves_weight (SC := demoDG) demoStore_reachable demoStore_stores
    (fun _ => 1) 2 [0, 0, 0] demo_fits demo_one
  exact ⟨s', v', e, h.trans (by decide +kernel)⟩
example : (accumulate demoAttrs demoCG demoDG (fun _ => 1) 2 demoStore (some [0, 0, 0]) none).map
    (fun r => r.2.1) = .ok (some [9/2, 2, 11/2]) := by decide +kernel

/-! ### C34 -/

/-- C34 (exact form).  With a cell field the value of every cell becomes
(old value + sum of the weights of its particles) / cell volume. -/
theorem C34_cell_exact {s : SAP α} (hr : Reachable s) {xs : List α} (hx : Stores s xs)
    {A : Attrs K α} {SD SC : Space K α} {d : Nat → Nat} (vol : Nat → K) (n : Nat) (v : List K)
    (h : CellField SC d n v.length) (hc : ∀ p ∈ xs, A.cell p < n) :
    ∃ s' v', accumulate A SD SC vol n s none (some v) = .ok (s', (none, some v')) ∧
      v'.length = v.length ∧
      ∀ k < n, v'.getD (d k) 0 =
        (v.getD (d k) 0 + ((xs.filter (fun p => A.cell p = k)).map A.weight).sum) / vol k := by
  obtain ⟨c, e⟩ := accumulate_ok (SD := SD) hr hx vol n none (some v)
    (by rintro w hw; cases hw)
    (by rintro w hw p hp i hi
        cases hw
        rw [h.one _ (hc p hp)] at hi
        simp only [List.mem_singleton] at hi
        exact hi ▸ h.range _ (hc p hp))
    (by rintro w hw k hk i hi
        cases hw
        rw [h.one k hk] at hi
        simp only [List.mem_singleton] at hi
        exact hi ▸ h.range k hk)
  refine ⟨_, _, e, by simp, ?_⟩
  intro k hk
  have hj := h.range k hk
  have hw : (xs.map (fun p => if d k ∈ SC.dofs (A.cell p) then A.weight p else 0)).sum =
      ((xs.filter (fun p => A.cell p = k)).map A.weight).sum := by
    clear e hx
    induction xs with
    | nil => rfl
    | cons p ps ih =>
      have hp := hc p (by simp)
      rw [List.map_cons, List.sum_cons, ih (fun q hq => hc q (by simp [hq])), List.filter_cons,
        h.one _ hp]
      by_cases hpk : A.cell p = k
      · rw [hpk]; simp
      · have : d k ≠ d (A.cell p) := fun e => hpk (h.inj k hk _ hp e).symm
        simp [hpk, this]
  simp only [weighAll, mapIdx_comp]
  rw [List.getD_eq_getElem?_getD, List.getD_eq_getElem?_getD]
  simp [hj, divisors h hk, hw]

/-- C34.  On a field set to zero before, density times volume summed over the cells is the number
of physical particles, and a cell without particles has density zero. -/
theorem C34_integrates {s : SAP α} (hr : Reachable s) {xs : List α} (hx : Stores s xs)
    {A : Attrs K α} {SD SC : Space K α} {d : Nat → Nat} (vol : Nat → K) (n : Nat) (v : List K)
    (h : CellField SC d n v.length) (hc : ∀ p ∈ xs, A.cell p < n) (hvol : ∀ k < n, vol k ≠ 0) :
    ∃ s' v', accumulate A SD SC vol n s none (some (setValues v 0)) = .ok (s', (none, some v')) ∧
      ((List.range n).map (fun k => v'.getD (d k) 0 * vol k)).sum = (xs.map A.weight).sum ∧
      ∀ k < n, (∀ p ∈ xs, A.cell p ≠ k) → v'.getD (d k) 0 = 0 := by
  have hlen : (setValues v (0 : K)).length = v.length := by simp [setValues]
  obtain ⟨s', v', e, _, hv⟩ := C34_cell_exact (SD := SD) hr hx vol n (setValues v 0)
    (by rw [hlen]; exact h) hc
  have h0 : ∀ j, (setValues v (0 : K)).getD j 0 = 0 := by
    intro j
    rw [List.getD_eq_getElem?_getD]
    by_cases hj : j < v.length <;> simp [setValues, hj]
  refine ⟨s', v', e, ?_, ?_⟩
  · have : ((List.range n).map (fun k => v'.getD (d k) 0 * vol k)) =
        (List.range n).map (fun k => (xs.map (fun p => if A.cell p = k then A.weight p else 0)).sum) := by
      apply List.map_congr_left
      intro k hk
      have hk := List.mem_range.1 hk
      rw [hv k hk, h0, zero_add, div_mul_cancel₀ _ (hvol k hk)]
      clear hx e hv hc
      induction xs with
      | nil => rfl
      | cons p ps ih =>
        rw [List.filter_cons, List.map_cons, List.sum_cons, ← ih]
        by_cases hpk : A.cell p = k <;> simp [hpk]
    rw [this, sum_swap]
    congr 1
    apply List.map_congr_left
    intro p hp
    exact sum_range_single n (A.cell p) (hc p hp) (A.weight p)
  · intro k hk hno
    rw [hv k hk, h0, List.filter_eq_nil_iff.2 (by simpa using hno)]
    simp

example : (accumulate demoAttrs demoCG demoDG (fun k => 2 + k) 2 demoStore none (some [0, 0])).map
    (fun r => r.2.2) = .ok (some [4/3, 4]) := by decide +kernel
example : ∃ s' v', accumulate demoAttrs demoCG demoDG (fun k => 2 + k) 2 demoStore none
    (some (setValues [7, 7] 0)) = .ok (s', (none, some v')) ∧
      ((List.range 2).map (fun k => v'.getD (1 - k) 0 * (2 + k))).sum = 12 := by
  obtain ⟨s', v', e, h, _⟩ := C34_integrates (SD := demoCG) demoStore_reachable demoStore_stores
    (A := demoAttrs) (fun k => (2 + k : ℚ)) 2 [7, 7] demo_cell (by decide +kernel)
    (by decide +kernel)
  exact ⟨s', v', e, h.trans (by decide +kernel)⟩

/-! ### C51: accumulating two species into one cell field -/

/-- C51 (exact form).  Accumulating a second population into a cell field divides what was
accumulated before once more by the cell volume. -/
theorem C51_two_species_exact {s t : SAP α} (hs : Reachable s) (ht : Reachable t) {xs ys : List α}
    (hx : Stores s xs) (hy : Stores t ys)
    {A : Attrs K α} {SD SC : Space K α} {d : Nat → Nat} (vol : Nat → K) (n : Nat) (v : List K)
    (h : CellField SC d n v.length) (hcx : ∀ p ∈ xs, A.cell p < n) (hcy : ∀ p ∈ ys, A.cell p < n) :
    ∃ s' t' v1 v2,
      accumulate A SD SC vol n s none (some (setValues v 0)) = .ok (s', (none, some v1)) ∧
      accumulate A SD SC vol n t none (some v1) = .ok (t', (none, some v2)) ∧
      ∀ k < n, v2.getD (d k) 0 =
        (((xs.filter (fun p => A.cell p = k)).map A.weight).sum / vol k +
          ((ys.filter (fun p => A.cell p = k)).map A.weight).sum) / vol k := by
  have hlen : (setValues v (0 : K)).length = v.length := by simp [setValues]
  obtain ⟨s', v1, e1, hl1, hv1⟩ := C34_cell_exact (SD := SD) hs hx vol n (setValues v 0)
    (by rw [hlen]; exact h) hcx
  obtain ⟨t', v2, e2, hl2, hv2⟩ := C34_cell_exact (SD := SD) ht hy vol n v1
    (by rw [hl1, hlen]; exact h) hcy
  refine ⟨s', t', v1, v2, e1, e2, ?_⟩
  intro k hk
  rw [hv2 k hk, hv1 k hk]
  congr 2
  rw [List.getD_eq_getElem?_getD]
  by_cases hj : d k < v.length <;> simp [setValues, hj]

/-- C51 is false: with cell volumes 2 and 3 the field accumulated over two species is not the
sum of their densities. -/
theorem C51_false_two_species :
    ∃ (v1 v2 : List ℚ),
      (accumulate demoAttrs demoCG demoDG (fun k => 2 + k) 2 demoStore none (some [0, 0])).map
        (fun r => r.2.2) = .ok (some v1) ∧
      (accumulate demoAttrs demoCG demoDG (fun k => 2 + k) 2 demoStore none (some v1)).map
        (fun r => r.2.2) = .ok (some v2) ∧
      v2 ≠ v1.map (fun x => x + x) :=
  ⟨[4/3, 4], [16/9, 6], by decide +kernel, by decide +kernel, by decide +kernel⟩

/-! ### C52: setting a field on a subdomain -/

/-- C52.  `set_values(value, subdomain)` gives the value to the DOFs attached to a cell of the
subdomain and zero to all others, whatever the field held before and however often a DOF is
shared. -/
theorem C52_set_on_subdomain {S : Space K α} (cells : List Nat) (v : List K) (x : K)
    (h : ∀ k ∈ cells, ∀ i ∈ S.dofs k, i < v.length) :
    ∃ v', setValuesOn S cells v x = .ok v' ∧ v'.length = v.length ∧
      ∀ j < v.length, v'[j]? = some (if ∃ k ∈ cells, j ∈ S.dofs k then x else 0) := by
  have hlen : (setValues v (0 : K)).length = v.length := by simp [setValues]
  have e := cellwise_ok (S := S) (fun _ y => y) (fun _ => x) (v := setValues v 0) (cells := cells)
    (by rw [hlen]; exact h)
  refine ⟨_, e, by simp [hlen], ?_⟩
  intro j hj
  have key : ∀ (n : Nat) (y : K), (List.replicate n x).foldl (fun _ y => y) y = if n = 0 then y else x := by
    intro n
    induction n with
    | zero => intro y; rfl
    | succ n ih => intro y; rw [List.replicate_succ, List.foldl_cons, ih]; simp
  simp only [List.getElem?_mapIdx, List.map_const', key]
  have : (setValues v (0 : K))[j]? = some 0 := by simp [setValues, hj]
  rw [this]
  simp only [Option.map_some, Option.some.injEq, List.length_eq_zero_iff, List.filter_eq_nil_iff]
  by_cases hex : ∃ k ∈ cells, j ∈ S.dofs k
  · rw [if_pos hex, if_neg (by push Not; simpa using hex)]
  · rw [if_neg hex, if_pos (by push Not at hex; simpa using hex)]

example : setValuesOn demoCG [0] [5, 6, 7] (9 : ℚ) = .ok [9, 0, 9] := by decide +kernel
example : ∀ k ∈ [0, 1], ∀ i ∈ demoCG.dofs k, i < [(5 : ℚ), 6, 7].length := by decide +kernel

/-! ### C48 -/

/-- C48 (exact form).  `multiply_values` on a subdomain multiplies each DOF value by the factor as
many times as the subdomain has cells attached to that DOF. -/
theorem C48_multiply_exact {S : Space K α} (cells : List Nat) (v : List K) (m : K)
    (h : ∀ k ∈ cells, ∀ i ∈ S.dofs k, i < v.length) :
    ∃ v', multiplyValuesOn S cells v m = .ok v' ∧ v'.length = v.length ∧
      ∀ j : Nat, (hj : j < v.length) → v'[j]? = some (v[j] * m ^ touching S.dofs cells j) :=
  ⟨_, multiplyValuesOn_ok m h, by simp, fun j hj => by simp [hj]⟩

/-- C48, the case in which it holds: no DOF is shared by two cells of the subdomain (as for fields
constant in the cells).  The full statement, without this hypothesis, is false. -/
theorem C48_multiply_once_partial {S : Space K α} (cells : List Nat) (v : List K) (m : K)
    (h : ∀ k ∈ cells, ∀ i ∈ S.dofs k, i < v.length) (hn : cells.Nodup)
    (hs : ∀ k ∈ cells, ∀ l ∈ cells, ∀ j ∈ S.dofs k, j ∈ S.dofs l → k = l) :
    ∃ v', multiplyValuesOn S cells v m = .ok v' ∧ v'.length = v.length ∧
      ∀ j : Nat, (hj : j < v.length) →
        v'[j]? = some (if ∃ k ∈ cells, j ∈ S.dofs k then v[j] * m else v[j]) := by
  obtain ⟨v', e, hl, hv⟩ := C48_multiply_exact cells v m h
  refine ⟨v', e, hl, fun j hj => ?_⟩
  rw [hv j hj]
  congr 1
  by_cases hex : ∃ k ∈ cells, j ∈ S.dofs k
  · rw [if_pos hex]
    obtain ⟨k, hk, hjk⟩ := hex
    have : touching S.dofs cells j = 1 := by
      have h2 : touching S.dofs cells j = cells.countP (fun l => l == k) := by
        unfold touching
        apply List.countP_congr
        intro l hl
        simp only [decide_eq_true_eq, beq_iff_eq]
        exact ⟨fun hjl => (hs k hk l hl j hjk hjl).symm, fun e => e ▸ hjk⟩
      rw [h2]
      have := List.count_eq_one_of_mem hn hk
      simpa [List.count] using this
    rw [this, pow_one]
  · rw [if_neg hex]
    have : touching S.dofs cells j = 0 := by
      unfold touching
      rw [List.countP_eq_zero]
      intro l hl
      simp only [decide_eq_true_eq]
      exact fun hc => hex ⟨l, hl, hc⟩
    rw [this, pow_zero, mul_one]

/-- C48 without a subdomain: every value is multiplied once; where each DOF belongs to one cell this is
what `multiply_values` does on a subdomain of all cells. -/
theorem C48_multiply_all (v : List K) (m : K) :
    (multiplyValues v m).length = v.length ∧
    (∀ j : Nat, (hj : j < v.length) → (multiplyValues v m)[j]? = some (v[j] * m)) ∧
    ∀ {S : Space K α} (cells : List Nat), (∀ k ∈ cells, ∀ i ∈ S.dofs k, i < v.length) → cells.Nodup →
      (∀ k ∈ cells, ∀ l ∈ cells, ∀ j ∈ S.dofs k, j ∈ S.dofs l → k = l) → (∀ j < v.length, ∃ k ∈ cells, j ∈ S.dofs k) →
      multiplyValuesOn S cells v m = .ok (multiplyValues v m) := by
  refine ⟨by simp [multiplyValues], fun j hj => by simp [multiplyValues, hj], fun cells h hn hs ha => ?_⟩
  obtain ⟨v', e, hl, hv⟩ := C48_multiply_once_partial cells v m h hn hs
  rw [e]
  congr 1
  refine List.ext_getElem? fun j => ?_
  by_cases hj : j < v.length
  · rw [hv j hj, if_pos (ha j hj)]
    simp [multiplyValues, hj]
  · rw [List.getElem?_eq_none (by omega), List.getElem?_eq_none (by simp [multiplyValues]; omega)]

/-- C48 is false for shared DOFs: on two cells with a common vertex the value there is
multiplied twice. -/
theorem C48_false_shared : multiplyValuesOn demoCG [0, 1] [1, 1, 1] (3 : ℚ) = .ok [3, 3, 9] := by
  decide +kernel

example : ∀ k ∈ [0, 1], ∀ l ∈ [0, 1], ∀ j ∈ demoDG.dofs k, j ∈ demoDG.dofs l → k = l := by
  decide +kernel
example : (∀ k ∈ [0, 1], ∀ i ∈ demoDG.dofs k, i < [(5 : ℚ), 7].length) ∧ [0, 1].Nodup ∧
    (∀ j < [(5 : ℚ), 7].length, ∃ k ∈ [0, 1], j ∈ demoDG.dofs k) := by
  decide +kernel

/-! ### C47 -/

/-- Consecutive solves on the same charge field. -/
def solves (bc solve : List K → List K) (f : Option K) : Nat → SolveSt K → SolveSt K
  | 0, st => st
  | n + 1, st => solves bc solve f n (solveForPhi bc solve st true f)

/-- C47 (exact form).  In the n-th of `n` consecutive solves on the same charge field the
right-hand side is made from `factor ^ n` times the charge, and the charge field itself has been
changed to that. -/
theorem C47_solves_exact (bc solve : List K → List K) (f : K) (n : Nat) (st : SolveSt K) :
    (solves bc solve (some f) (n + 1) st).charge = st.charge.map (fun x => x * f ^ (n + 1)) ∧
    (solves bc solve (some f) (n + 1) st).b = bc (st.charge.map (fun x => x * f ^ (n + 1))) ∧
    (solves bc solve (some f) (n + 1) st).phi =
      solve (bc (st.charge.map (fun x => x * f ^ (n + 1)))) := by
  induction n generalizing st with
  | zero => simp [solves, solveForPhi]
  | succ n ih =>
    have := ih (solveForPhi bc solve st true (some f))
    have hc : (solveForPhi bc solve st true (some f)).charge.map (fun x => x * f ^ (n + 1)) =
        st.charge.map (fun x => x * f ^ (n + 1 + 1)) := by
      simp only [solveForPhi, if_true, List.map_map]
      apply List.map_congr_left
      intro x _
      simp only [Function.comp]
      ring
    rw [hc] at this
    exact this

/-- A run of the main loop: before every solve the charge field is assembled afresh
(examples/sphere1D/sphere1D.py:1308-1359). -/
def assembleAndSolve (bc solve : List K → List K) (f : Option K) :
    SolveSt K → List (List K) → List (SolveSt K)
  | _, [] => []
  | st, q :: qs =>
    let st' := solveForPhi bc solve { st with charge := q } true f
    st' :: assembleAndSolve bc solve f st' qs

/-- C47, the case in which it holds: if the charge field is assembled anew before every solve, each
solve uses factor times that charge (or the charge itself without a factor), independently of
the history.  Without re-assembly the statement is false (`C47_false_compounding`). -/
theorem C47_once_partial (bc solve : List K → List K) (f : Option K) (st : SolveSt K)
    (qs : List (List K)) :
    (assembleAndSolve bc solve f st qs).map (fun t => (t.b, t.phi)) =
      qs.map (fun q => (bc (q.map (fun x => x * f.getD 1)), solve (bc (q.map (fun x => x * f.getD 1))))) := by
  induction qs generalizing st with
  | nil => rfl
  | cons q qs ih =>
    simp only [assembleAndSolve, List.map_cons, ih]
    cases f <;> simp [solveForPhi]

/-- C47 is false: the second solve on the same charge [1] with factor 1/2 uses 1/4. -/
theorem C47_false_compounding :
    (solves (K := ℚ) id id (some (1/2)) 2 ⟨[1], [], []⟩).b = [1/4] ∧
    (solves (K := ℚ) id id (some (1/2)) 2 ⟨[1], [], []⟩).b ≠ [1/2] := by decide +kernel

/-- A solve without a charge reuses the right-hand side of the previous solve. -/
theorem C47_no_charge (bc solve : List K → List K) (st : SolveSt K) (f : Option K) :
    (solveForPhi bc solve st false f).phi = solve st.b ∧
    (solveForPhi bc solve st false f).charge = st.charge := ⟨rfl, rfl⟩

/-! ### C53: the assembled charge -/

theorem multiplyAdd_sum (v w : List K) (q : K) (h : v.length = w.length) :
    ∃ v', multiplyAdd v w (some q) = .ok v' ∧ v'.length = v.length ∧ v'.sum = v.sum + q * w.sum := by
  refine ⟨_, by rw [multiplyAdd, if_pos h], by simp [h], ?_⟩
  simp only
  induction v generalizing w with
  | nil => cases w with
    | nil => simp
    | cons => simp at h
  | cons x xs ih =>
    cases w with
    | nil => simp at h
    | cons y ys =>
      simp only [List.zipWith_cons_cons, List.sum_cons]
      rw [ih ys (by simpa using h)]
      ring

/-- C53.  One step of the main loop assembles a charge field whose values sum to the total charge
of all stored particles: the sum over species of charge times number of physical particles. -/
theorem C53_total_charge {A : Attrs K α} {SD SC : Space K α} {d : Nat → Nat} (vol : Nat → K)
    (n len : Nat) (species : List (K × SAP α × List K × List K)) (pops : List (List α))
    (v : List K) (hl : v.length = len)
    (hsp : List.Forall₂ (fun sp xs => Reachable sp.2.1 ∧ Stores sp.2.1 xs ∧ sp.2.2.1.length = len ∧
      CellField SC d n sp.2.2.2.length ∧ (∀ p ∈ xs, Fits A SD len p) ∧
      (∀ p ∈ xs, (SD.basis p).sum = 1) ∧ ∀ p ∈ xs, A.cell p < n) species pops) :
    ∃ v', assembleCharge A SD SC vol n (setValues v 0) species = .ok v' ∧ v'.length = len ∧
      v'.sum = (List.zipWith (fun sp xs => sp.1 * (xs.map A.weight).sum) species pops).sum := by
  suffices H : ∀ w : List K, w.length = len → ∃ v', assembleCharge A SD SC vol n w species = .ok v' ∧
      v'.length = len ∧
      v'.sum = w.sum + (List.zipWith (fun sp xs => sp.1 * (xs.map A.weight).sum) species pops).sum by
    obtain ⟨v', e, h1, h2⟩ := H (setValues v 0) (by simpa [setValues] using hl)
    refine ⟨v', e, h1, ?_⟩
    rw [h2]
    have : (setValues v (0 : K)).sum = 0 := by
      apply List.sum_eq_zero
      simp [setValues]
    rw [this, zero_add]
  induction hsp with
  | nil => intro w hw; exact ⟨w, rfl, hw, by simp⟩
  | cons hd htl ih =>
    rename_i sp xs sps xss
    obtain ⟨q, s, dv, cv⟩ := sp
    obtain ⟨hr, hx, hlen, hcf, hfit, hone, hcell⟩ := hd
    intro w hw
    have hlen : dv.length = len := hlen
    have hcf : CellField SC d n cv.length := hcf
    obtain ⟨c, e⟩ := accumulate_ok (A := A) (SD := SD) (SC := SC) hr hx vol n (some (setValues dv 0))
      (some (setValues cv 0))
      (by rintro u hu; cases hu; simpa [setValues, hlen] using hfit)
      (by rintro u hu p hp i hi
          cases hu
          rw [hcf.one _ (hcell p hp)] at hi
          simp only [List.mem_singleton] at hi
          simpa [setValues] using hi ▸ hcf.range _ (hcell p hp))
      (by rintro u hu k hk i hi
          cases hu
          rw [hcf.one k hk] at hi
          simp only [List.mem_singleton] at hi
          simpa [setValues] using hi ▸ hcf.range k hk)
    have hdl : (depositAll A SD xs (setValues dv (0 : K))).length = len := by simp [setValues, hlen]
    obtain ⟨w', e2, hw', hs'⟩ := multiplyAdd_sum w (depositAll A SD xs (setValues dv 0)) q
      (by rw [hw, hdl])
    obtain ⟨v', e3, h1, h2⟩ := ih w' (by rw [hw', hw])
    refine ⟨v', ?_, h1, ?_⟩
    · simp only [assembleCharge, e, bind, Except.bind, Option.map_some, e2]
      exact e3
    · rw [h2, hs', depositAll_sum (by simpa [setValues, hlen] using hfit) hone]
      have : (setValues dv (0 : K)).sum = 0 := by
        apply List.sum_eq_zero
        simp [setValues]
      rw [this, zero_add, List.zipWith_cons_cons, List.sum_cons]
      ring

/-- C53.  Adding the charge densities of all species to a field adds, at every DOF, the sum of charge times density over
the species; without a particle mesh it fails and changes nothing. -/
theorem C53_charge_density (mesh : Bool) (v : List K) (species : List (K × List K)) (h : ∀ s ∈ species, s.2.length = v.length) :
    chargeDensity mesh v species = if mesh then
      .ok ((List.range v.length).map (fun k => v.getD k 0 + (species.map (fun s => s.1 * s.2.getD k 0)).sum)) else .error .runtime := by
  unfold chargeDensity
  split
  · induction species generalizing v with
    | nil =>
      simp only [List.foldlM_nil, pure, Except.pure, List.map_nil, List.sum_nil, add_zero, Except.ok.injEq]
      refine List.ext_getElem (by simp) fun k h1 h2 => ?_
      simp [h1]
    | cons s sps ih =>
      have hs := h s (by simp)
      rw [List.foldlM_cons, multiplyAdd, if_pos hs.symm]
      simp only [bind, Except.bind]
      rw [ih _ (fun t ht => by simp [h t (by simp [ht]), hs])]
      congr 1
      have hl : (List.zipWith (fun x y => x + s.1 * y) v s.2).length = v.length := by simp [hs]
      rw [hl]
      refine List.map_congr_left fun k hk => ?_
      have hk := List.mem_range.1 hk
      have : (List.zipWith (fun x y => x + s.1 * y) v s.2).getD k 0 = v.getD k 0 + s.1 * s.2.getD k 0 := by
        simp [List.getD_eq_getElem?_getD, hk, hs]
      rw [this, List.map_cons, List.sum_cons, add_assoc]
  · rfl

example : chargeDensity true [1, 0, 0] [(-1, [1, 2, 3]), (2, [5, 0, (1 : ℚ)])] = .ok [10, -2, -1] := by decide +kernel

-- two species with the demo population, charges -1 and 3/2: total (3/2 - 1) * 12 = 6
example : (assembleCharge demoAttrs demoCG demoDG (fun k => 2 + k) 2 [0, 0, 0]
    [(-1, demoStore, [1, 1, 1], [1, 1]), (3/2, demoStore, [2, 2, 2], [2, 2])]).map List.sum
    = .ok 6 := by decide +kernel
example : ∃ v', assembleCharge demoAttrs demoCG demoDG (fun k => 2 + k) 2 (setValues [0, 0, 0] 0)
    [(-1, demoStore, [1, 1, 1], [1, 1])] = .ok v' ∧ v'.sum = -12 := by
  obtain ⟨v', e, _, h⟩ := C53_total_charge (A := demoAttrs) (SD := demoCG) (SC := demoDG)
    (d := fun k => 1 - k) (fun k => (2 + k : ℚ)) 2 3 [(-1, demoStore, [1, 1, 1], [1, 1])] [demoPop]
    [0, 0, 0] rfl
    (.cons ⟨demoStore_reachable, demoStore_stores, rfl, demo_cell, demo_fits, demo_one,
      by decide +kernel⟩ .nil)
  exact ⟨v', e, h.trans (by decide +kernel)⟩

end Fld
end Dt
