import Verif.Model.Field
import Verif.Spec.Field
import Verif.Lemmas.OutLoop
import Mathlib.Algebra.BigOperators.Group.List.Basic
import Mathlib.Algebra.BigOperators.Ring.List
import Mathlib.Tactic.Ring

set_option linter.unusedSectionVars false

namespace Dt
namespace Fld
open Spec (share touching Fits contrib CellField)
variable {K : Type} [Field K] {α : Type}

theorem mapIdx_id (v : List K) : v.mapIdx (fun _ x => x) = v := by
  apply List.ext_getElem <;> simp

theorem take_ok {v : List K} {idx : List Nat} (h : ∀ i ∈ idx, i < v.length) :
    take v idx = .ok (idx.map (fun i => v.getD i 0)) := by
  induction idx with
  | nil => rfl
  | cons i is ih =>
    have hi : i < v.length := h i (by simp)
    have := ih (fun j hj => h j (by simp [hj]))
    simp only [take, this, pyGet_of_lt hi, bind, Except.bind, pure, Except.pure, List.map_cons]
    simp [hi]

theorem put_map {w : List K} {idx : List Nat} (h : ∀ i ∈ idx, i < w.length) (f : Nat → K) :
    put w idx (idx.map f) = .ok (w.mapIdx (fun j x => if j ∈ idx then f j else x)) := by
  induction idx generalizing w with
  | nil => simp [put, mapIdx_id]
  | cons i is ih =>
    have hi : i < w.length := h i (by simp)
    simp only [List.map_cons, put, pySet_of_lt _ hi, bind, Except.bind]
    rw [ih (fun j hj => by rw [List.length_set]; exact h j (by simp [hj]))]
    congr 1
    apply List.ext_getElem
    · simp
    · intro j h1 h2
      simp only [List.getElem_mapIdx, List.getElem_set, List.mem_cons]
      by_cases hj : j ∈ is
      · simp [hj]
      · by_cases hij : i = j
        · subst hij; simp
        · simp [hj, hij, Ne.symm hij]

theorem updateS_ok {v : List K} {idx : List Nat} (h : ∀ i ∈ idx, i < v.length)
    (op : K → K → K) (c : K) :
    updateS op v idx c = .ok (v.mapIdx (fun j x => if j ∈ idx then op x c else x)) := by
  unfold updateS
  rw [take_ok h]
  simp only [bind, Except.bind, List.map_map]
  have := put_map h (fun i => op (v.getD i 0) c)
  rw [show (idx.map ((fun x => op x c) ∘ fun i => v.getD i 0)) = idx.map (fun i => op (v.getD i 0) c)
    from rfl, this]
  congr 1
  apply List.ext_getElem
  · simp
  · intro j h1 h2
    have hj : j < v.length := by simpa using h1
    simp [hj]

theorem share_notMem {idx : List Nat} {b : List K} {j : Nat} (h : j ∉ idx) : share idx b j = 0 := by
  unfold share
  apply List.sum_eq_zero
  intro x hx
  simp only [List.mem_map] at hx
  obtain ⟨⟨d, c⟩, hm, rfl⟩ := hx
  have := List.of_mem_zip hm
  rw [if_neg]
  rintro rfl
  exact h this.1

theorem share_cons (i : Nat) (is : List Nat) (c : K) (cs : List K) (j : Nat) :
    share (i :: is) (c :: cs) j = (if i = j then c else 0) + share is cs j := rfl

theorem put_share {w : List K} {idx : List Nat} {b : List K} (f : Nat → K)
    (h : ∀ i ∈ idx, i < w.length) (hn : idx.Nodup) (hl : b.length = idx.length) :
    put w idx (List.zipWith (· + ·) (idx.map f) b) =
      .ok (w.mapIdx (fun j x => if j ∈ idx then f j + share idx b j else x)) := by
  induction idx generalizing w b with
  | nil => cases b <;> simp_all [put, mapIdx_id]
  | cons i is ih =>
    cases b with
    | nil => simp at hl
    | cons c cs =>
      have hi : i < w.length := h i (by simp)
      have hni := List.nodup_cons.1 hn
      simp only [List.map_cons, List.zipWith_cons_cons, put, pySet_of_lt _ hi, bind, Except.bind]
      rw [ih (fun j hj => by rw [List.length_set]; exact h j (by simp [hj])) hni.2
        (by simpa using hl)]
      congr 1
      apply List.ext_getElem
      · simp
      · intro j h1 h2
        simp only [List.getElem_mapIdx, List.getElem_set, List.mem_cons, share_cons]
        by_cases hj : j ∈ is
        · have hij : i ≠ j := by rintro rfl; exact hni.1 hj
          simp [hj, hij]
        · by_cases hij : i = j
          · subst hij; simp [hj, share_notMem]
          · simp [hj, hij, Ne.symm hij]

theorem update_add_ok {v : List K} {idx : List Nat} {b : List K} (h : ∀ i ∈ idx, i < v.length)
    (hn : idx.Nodup) (hl : b.length = idx.length) :
    update (· + ·) v idx b = .ok (v.mapIdx (fun j x => x + share idx b j)) := by
  unfold update
  rw [take_ok h]
  simp only [bind, Except.bind, List.length_map, hl, if_true]
  rw [put_share _ h hn hl]
  congr 1
  apply List.ext_getElem
  · simp
  · intro j h1 h2
    have hj : j < v.length := by simpa using h1
    simp only [List.getElem_mapIdx]
    split
    · simp [hj]
    · rename_i hni; rw [share_notMem hni, add_zero]

theorem mapIdx_comp (v : List K) (f g : Nat → K → K) :
    (v.mapIdx f).mapIdx g = v.mapIdx (fun j x => g j (f j x)) := by
  apply List.ext_getElem <;> simp

/-- Folding updates that act value by value. -/
theorem foldlM_mapIdx {β : Type} (step : List K → β → Except Err (List K)) (f : β → Nat → K → K)
    (n : Nat) (xs : List β)
    (h : ∀ b ∈ xs, ∀ v : List K, v.length = n → step v b = .ok (v.mapIdx (f b)))
    (v : List K) (hv : v.length = n) :
    xs.foldlM step v = .ok (v.mapIdx (fun j x => xs.foldl (fun y b => f b j y) x)) := by
  induction xs generalizing v with
  | nil =>
    simp only [List.foldlM_nil, List.foldl_nil, mapIdx_id, pure, Except.pure]
  | cons b bs ih =>
    rw [List.foldlM_cons, h b (by simp) v hv]
    simp only [bind, Except.bind]
    rw [ih (fun c hc => h c (by simp [hc])) _ (by simpa using hv), mapIdx_comp]
    rfl

theorem share_mul (c : K) (idx : List Nat) (b : List K) (j : Nat) :
    share idx (b.map (fun x => c * x)) j = c * share idx b j := by
  induction idx generalizing b with
  | nil => simp [share]
  | cons i is ih =>
    cases b with
    | nil => simp [share]
    | cons x xs =>
      rw [List.map_cons, share_cons, share_cons, ih, mul_add]
      split <;> simp

theorem deposit_ok {A : Attrs K α} {S : Space K α} {v : List K} {p : α}
    (h : Fits A S v.length p) :
    deposit A S v p = .ok (v.mapIdx (fun j x => x + contrib A S j p)) := by
  unfold deposit
  rw [update_add_ok h.range h.nodup (by simpa using h.len)]
  simp only [share_mul, contrib]

theorem foldl_add (xs : List α) (f : α → K) (x : K) :
    xs.foldl (fun y p => y + f p) x = x + (xs.map f).sum := by
  induction xs generalizing x with
  | nil => simp
  | cons a as ih => simp [ih, add_assoc]

theorem deposits_ok {A : Attrs K α} {S : Space K α} {v : List K} {xs : List α}
    (h : ∀ p ∈ xs, Fits A S v.length p) :
    xs.foldlM (deposit A S) v = .ok (v.mapIdx (fun j x => x + (xs.map (contrib A S j)).sum)) := by
  rw [foldlM_mapIdx (deposit A S) (fun p j x => x + contrib A S j p) v.length xs
    (fun p hp w hw => deposit_ok (by rw [hw]; exact h p hp)) v rfl]
  congr 1
  congr 1
  funext j x
  exact foldl_add xs (contrib A S j) x

theorem addWeights_ok {A : Attrs K α} {S : Space K α} {v : List K} {xs : List α}
    (h : ∀ p ∈ xs, ∀ i ∈ S.dofs (A.cell p), i < v.length) :
    xs.foldlM (addWeight A S) v = .ok (v.mapIdx (fun j x =>
      x + (xs.map (fun p => if j ∈ S.dofs (A.cell p) then A.weight p else 0)).sum)) := by
  rw [foldlM_mapIdx (addWeight A S)
    (fun p j x => x + if j ∈ S.dofs (A.cell p) then A.weight p else 0) v.length xs ?_ v rfl]
  · congr 1
    congr 1
    funext j x
    exact foldl_add xs (fun p => if j ∈ S.dofs (A.cell p) then A.weight p else 0) x
  · intro p hp w hw
    unfold addWeight
    rw [updateS_ok (by rw [hw]; exact h p hp)]
    congr 1
    congr 1
    funext j x
    by_cases hj : j ∈ S.dofs (A.cell p)
    · simp only [if_pos hj]
    · simp only [if_neg hj, add_zero]

/-- Scaling or dividing cell by cell. -/
theorem foldl_if (op : K → K → K) (xs : List Nat) (P : Nat → Bool) (c : Nat → K) (x : K) :
    xs.foldl (fun y b => if P b then op y (c b) else y) x =
      ((xs.filter P).map c).foldl op x := by
  induction xs generalizing x with
  | nil => rfl
  | cons b bs ih =>
    rw [List.foldl_cons, ih, List.filter_cons]
    split <;> rfl

theorem foldl_mul_pow (n : Nat) (m x : K) : (List.replicate n m).foldl (· * ·) x = x * m ^ n := by
  induction n generalizing x with
  | zero => simp
  | succ n ih => rw [List.replicate_succ, List.foldl_cons, ih, pow_succ]; ring

theorem cellwise_ok {S : Space K α} (op : K → K → K) (c : Nat → K) {v : List K} {cells : List Nat}
    (h : ∀ k ∈ cells, ∀ i ∈ S.dofs k, i < v.length) :
    cells.foldlM (fun v k => updateS op v (S.dofs k) (c k)) v =
      .ok (v.mapIdx (fun j x => ((cells.filter (fun k => decide (j ∈ S.dofs k))).map c).foldl op x)) := by
  rw [foldlM_mapIdx (fun v k => updateS op v (S.dofs k) (c k))
    (fun k j x => if decide (j ∈ S.dofs k) then op x (c k) else x) v.length cells ?_ v rfl]
  · congr 1
    congr 1
    funext j x
    exact foldl_if op cells (fun k => decide (j ∈ S.dofs k)) c x
  · intro k hk w hw
    rw [updateS_ok (by rw [hw]; exact h k hk)]
    simp

theorem multiplyValuesOn_ok {S : Space K α} {v : List K} {cells : List Nat} (m : K)
    (h : ∀ k ∈ cells, ∀ i ∈ S.dofs k, i < v.length) :
    multiplyValuesOn S cells v m =
      .ok (v.mapIdx (fun j x => x * m ^ touching S.dofs cells j)) := by
  unfold multiplyValuesOn
  rw [cellwise_ok (· * ·) (fun _ => m) h]
  congr 1
  congr 1
  funext j x
  rw [List.map_const', foldl_mul_pow, touching, List.countP_eq_length_filter]

theorem divideByVolumes_ok {S : Space K α} {v : List K} (vol : Nat → K) (n : Nat)
    (h : ∀ k < n, ∀ i ∈ S.dofs k, i < v.length) :
    divideByVolumes S vol n v = .ok (v.mapIdx (fun j x =>
      (((List.range n).filter (fun k => decide (j ∈ S.dofs k))).map vol).foldl (· / ·) x)) :=
  cellwise_ok (· / ·) vol (fun k hk => h k (List.mem_range.1 hk))

/-- The effect of a population on the DOF values. -/
def depositAll (A : Attrs K α) (S : Space K α) (xs : List α) (v : List K) : List K :=
  v.mapIdx (fun j x => x + (xs.map (contrib A S j)).sum)

/-- The effect of a population on the cell values. -/
def weighAll (A : Attrs K α) (S : Space K α) (xs : List α) (v : List K) : List K :=
  v.mapIdx (fun j x => x + (xs.map (fun p => if j ∈ S.dofs (A.cell p) then A.weight p else 0)).sum)

@[simp] theorem depositAll_length (A : Attrs K α) (S : Space K α) (xs : List α) (v : List K) :
    (depositAll A S xs v).length = v.length := by simp [depositAll]

@[simp] theorem weighAll_length (A : Attrs K α) (S : Space K α) (xs : List α) (v : List K) :
    (weighAll A S xs v).length = v.length := by simp [weighAll]

theorem accumulateOne_fold {A : Attrs K α} {SD SC : Space K α} (xs : List α)
    (d c : Option (List K))
    (hd : ∀ v ∈ d, ∀ p ∈ xs, Fits A SD v.length p)
    (hc : ∀ v ∈ c, ∀ p ∈ xs, ∀ i ∈ SC.dofs (A.cell p), i < v.length) :
    xs.foldlM (accumulateOne A SD SC) (d, c) =
      .ok (d.map (depositAll A SD xs), c.map (weighAll A SC xs)) := by
  induction xs generalizing d c with
  | nil =>
    cases d <;> cases c <;>
      simp [depositAll, weighAll, mapIdx_id, pure, Except.pure]
  | cons p ps ih =>
    rw [List.foldlM_cons]
    have e : accumulateOne A SD SC (d, c) p =
        .ok (d.map (depositAll A SD [p]), c.map (weighAll A SC [p])) := by
      cases d with
      | none =>
        cases c with
        | none => rfl
        | some c =>
          have := addWeights_ok (A := A) (S := SC) (v := c) (xs := [p])
            (by simpa using hc c rfl p (by simp))
          simp only [List.foldlM_cons, List.foldlM_nil, bind_pure] at this
          simp [accumulateOne, this, bind, Except.bind, pure, Except.pure, Except.map, weighAll]
      | some d =>
        have h1 := deposits_ok (A := A) (S := SD) (v := d) (xs := [p])
          (by simpa using hd d rfl p (by simp))
        simp only [List.foldlM_cons, List.foldlM_nil, bind_pure] at h1
        cases c with
        | none => simp [accumulateOne, h1, bind, Except.bind, pure, Except.pure, Except.map, depositAll]
        | some c =>
          have := addWeights_ok (A := A) (S := SC) (v := c) (xs := [p])
            (by simpa using hc c rfl p (by simp))
          simp only [List.foldlM_cons, List.foldlM_nil, bind_pure] at this
          simp [accumulateOne, h1, this, bind, Except.bind, pure, Except.pure, Except.map, weighAll,
            depositAll]
    rw [e]
    simp only [bind, Except.bind]
    rw [ih]
    · cases d <;> cases c <;>
        simp [depositAll, weighAll, mapIdx_comp, add_assoc]
    · intro v hv q hq
      cases d with
      | none => simp at hv
      | some d =>
        simp only [Option.map_some, Option.mem_some_iff] at hv
        subst hv
        rw [depositAll_length]
        exact hd d rfl q (by simp [hq])
    · intro v hv q hq
      cases c with
      | none => simp at hv
      | some c =>
        simp only [Option.map_some, Option.mem_some_iff] at hv
        subst hv
        rw [weighAll_length]
        exact hc c rfl q (by simp [hq])

theorem sum_mapIdx_add (v : List K) (f : Nat → K) :
    (v.mapIdx (fun j x => x + f j)).sum = v.sum + ((List.range v.length).map f).sum := by
  induction v generalizing f with
  | nil => simp
  | cons x xs ih =>
    have := ih (fun j => f (j + 1))
    simp only [List.mapIdx_cons, List.sum_cons, List.length_cons, List.range_succ_eq_map,
      List.map_cons, List.map_map, Function.comp_def, this]
    ring

theorem sum_range_single (n d : Nat) (h : d < n) (c : K) :
    ((List.range n).map (fun j => if d = j then c else 0)).sum = c := by
  induction n with
  | zero => omega
  | succ n ih =>
    rw [List.range_succ, List.map_append, List.sum_append]
    by_cases hd : d = n
    · subst hd
      have : ((List.range d).map (fun j => if d = j then c else 0)).sum = 0 := by
        apply List.sum_eq_zero
        intro x hx
        obtain ⟨j, hj, rfl⟩ := List.mem_map.1 hx
        have := List.mem_range.1 hj
        rw [if_neg (by omega)]
      simp [this]
    · rw [ih (by omega)]
      simp [hd]

theorem sum_share {n : Nat} {idx : List Nat} {b : List K} (h : ∀ i ∈ idx, i < n)
    (hl : b.length = idx.length) : ((List.range n).map (share idx b)).sum = b.sum := by
  induction idx generalizing b with
  | nil => cases b with
    | nil =>
      apply List.sum_eq_zero
      intro x hx
      obtain ⟨j, _, rfl⟩ := List.mem_map.1 hx
      rfl
    | cons => simp at hl
  | cons i is ih =>
    cases b with
    | nil => simp at hl
    | cons c cs =>
      have := ih (b := cs) (fun j hj => h j (by simp [hj])) (by simpa using hl)
      rw [List.sum_cons, ← this, ← sum_range_single n i (h i (by simp)) c, ← List.sum_map_add]
      congr 1
      apply List.map_congr_left
      intro j _
      rw [sum_range_single n i (h i (by simp)) c]
      exact share_cons i is c cs j

theorem sum_swap {β γ : Type} (xs : List β) (ys : List γ) (f : β → γ → K) :
    (xs.map (fun a => (ys.map (f a)).sum)).sum = (ys.map (fun b => (xs.map (fun a => f a b)).sum)).sum := by
  induction xs with
  | nil => simp
  | cons a as ih => simp only [List.map_cons, List.sum_cons, ih, List.sum_map_add]

theorem depositAll_sum {A : Attrs K α} {S : Space K α} {xs : List α} {v : List K}
    (h : ∀ p ∈ xs, Fits A S v.length p) (h1 : ∀ p ∈ xs, (S.basis p).sum = 1) :
    (depositAll A S xs v).sum = v.sum + (xs.map A.weight).sum := by
  unfold depositAll
  rw [sum_mapIdx_add, sum_swap]
  congr 2
  apply List.map_congr_left
  intro p hp
  simp only [contrib]
  rw [List.sum_map_mul_left, sum_share (h p hp).range (h p hp).len, h1 p hp, mul_one]

theorem accumulate_ok {s : SAP α} (hr : SAP.Reachable s) {xs : List α} (hx : Spec.Stores s xs)
    {A : Attrs K α} {SD SC : Space K α} (vol : Nat → K) (n : Nat) (d c : Option (List K))
    (hd : ∀ v ∈ d, ∀ p ∈ xs, Fits A SD v.length p)
    (hc : ∀ v ∈ c, ∀ p ∈ xs, ∀ i ∈ SC.dofs (A.cell p), i < v.length)
    (hv : ∀ v ∈ c, ∀ k < n, ∀ i ∈ SC.dofs k, i < v.length) :
    ∃ cur, accumulate A SD SC vol n s d c = .ok (s.withCur cur, (d.map (depositAll A SD xs),
      c.map (fun v => (weighAll A SC xs v).mapIdx (fun j x =>
        (((List.range n).filter (fun k => decide (j ∈ SC.dofs k))).map vol).foldl (· / ·) x)))) := by
  obtain ⟨cur, e⟩ := SAP.outLoop_read_stores hr hx
    (fun st ps => ps.foldlM (accumulateOne A SD SC) st) (d, c)
  refine ⟨cur, ?_⟩
  unfold accumulate
  rw [e, SAP.foldlM_pieces, Spec.chunk_flatten (SAP.reachable_inv hr).out.pos, accumulateOne_fold xs d c hd hc]
  simp only [Except.map, bind, Except.bind]
  cases c with
  | none => rfl
  | some c =>
    simp only [Option.map_some]
    rw [divideByVolumes_ok vol n (by rw [weighAll_length]; exact hv c rfl)]
    rfl

/-- With one DOF per cell the divisor of DOF `d k` is the volume of cell `k`. -/
theorem divisors {S : Space K α} {d : Nat → Nat} {n len : Nat} (h : CellField S d n len)
    {k : Nat} (hk : k < n) :
    (List.range n).filter (fun l => decide (d k ∈ S.dofs l)) = [k] := by
  have : (List.range n).filter (fun l => decide (d k ∈ S.dofs l)) =
      (List.range n).filter (fun l => decide (l = k)) := by
    apply List.filter_congr
    intro l hl
    have hl := List.mem_range.1 hl
    rw [h.one l hl]
    simp only [List.mem_singleton]
    congr 1
    exact propext ⟨fun e => (h.inj k hk l hl e).symm, fun e => by rw [e]⟩
  rw [this]
  clear this h
  induction n with
  | zero => omega
  | succ n ih =>
    rw [List.range_succ, List.filter_append]
    by_cases hkn : k = n
    · subst hkn
      have : (List.range k).filter (fun l => decide (l = k)) = [] := by
        rw [List.filter_eq_nil_iff]
        intro l hl
        have := List.mem_range.1 hl
        simp; omega
      rw [this]; simp
    · rw [ih (by omega)]
      simp [Ne.symm hkn]

end Fld
end Dt
