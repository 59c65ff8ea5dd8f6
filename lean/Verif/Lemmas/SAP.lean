import Verif.Model.SAP

/-! # Helper lemmas about the segmented array pair -/

namespace Dt

/-! ### Python subscripts -/

theorem pyGet_nat {β : Type _} (xs : List β) (n : Nat) :
    pyGet xs (n : Int) = orIndexErr xs[n]? := by
  simp [pyGet]

theorem pyGet_of_lt {β : Type _} {xs : List β} {n : Nat} (h : n < xs.length) :
    pyGet xs (n : Int) = .ok xs[n] := by
  simp [pyGet_nat, List.getElem?_eq_getElem h, orIndexErr]

theorem pySet_of_lt {β : Type _} {xs : List β} {n : Nat} (v : β) (h : n < xs.length) :
    pySet xs (n : Int) v = .ok (xs.set n v) := by
  simp [pySet, h]

theorem pySet_of_ge {β : Type _} {xs : List β} {n : Nat} (v : β) (h : xs.length ≤ n) :
    pySet xs (n : Int) v = .error .index := by
  simp [pySet]; omega

theorem pyDivmod_nat (i n : Nat) : pyDivmod (i : Int) n = (((i / n : Nat) : Int), ((i % n : Nat) : Int)) := by
  simp [pyDivmod, Int.fdiv_eq_ediv_of_nonneg, Int.fmod_eq_emod_of_nonneg]

theorem pySlice0_nat {β : Type _} (xs : List β) (n : Nat) : pySlice0 xs (n : Int) = xs.take n := by
  simp [pySlice0]

/-! ### Lists of segments of equal length -/

/-- All segments have length `sl`. -/
def Uniform {α : Type _} (sl : Nat) (segs : List (List α)) : Prop := ∀ s ∈ segs, s.length = sl

theorem Uniform.flatten_length {α : Type _} {sl : Nat} {segs : List (List α)}
    (h : Uniform sl segs) : segs.flatten.length = segs.length * sl := by
  induction segs with
  | nil => simp
  | cons s ss ih =>
    have h1 : s.length = sl := h s (by simp)
    have h2 : Uniform sl ss := fun t ht => h t (by simp [ht])
    simp [ih h2, h1, Nat.succ_mul]; omega

theorem Uniform.flatten_get? {α : Type _} {sl : Nat} {segs : List (List α)}
    (h : Uniform sl segs) (q r : Nat) (hr : r < sl) :
    segs.flatten[q * sl + r]? = (segs[q]?).bind (fun s => s[r]?) := by
  induction segs generalizing q with
  | nil => simp
  | cons s ss ih =>
    have h1 : s.length = sl := h s (by simp)
    have h2 : Uniform sl ss := fun t ht => h t (by simp [ht])
    cases q with
    | zero =>
      simp only [List.flatten_cons, Nat.zero_mul, Nat.zero_add, List.getElem?_cons_zero,
        Option.bind_some]
      rw [List.getElem?_append_left (by omega)]
    | succ q =>
      simp only [List.flatten_cons, List.getElem?_cons_succ]
      rw [List.getElem?_append_right (by rw [h1, Nat.succ_mul]; omega)]
      rw [h1, show (q + 1) * sl + r - sl = q * sl + r by rw [Nat.succ_mul]; omega]
      exact ih h2 q

theorem Uniform.set {α : Type _} {sl : Nat} {segs : List (List α)}
    (h : Uniform sl segs) (q : Nat) (s : List α) (hs : s.length = sl) :
    Uniform sl (segs.set q s) := by
  intro t ht
  rcases List.mem_or_eq_of_mem_set ht with h' | h'
  · exact h t h'
  · exact h' ▸ hs

theorem Uniform.append {α : Type _} {sl : Nat} {segs : List (List α)}
    (h : Uniform sl segs) (s : List α) (hs : s.length = sl) : Uniform sl (segs ++ [s]) := by
  intro t ht
  rcases List.mem_append.1 ht with h' | h'
  · exact h t h'
  · simp at h'; exact h' ▸ hs

theorem Uniform.flatten_set {α : Type _} {sl : Nat} {segs : List (List α)}
    (h : Uniform sl segs) (q r : Nat) (hq : q < segs.length) (hr : r < sl) (v : α) :
    (segs.set q (segs[q].set r v)).flatten = segs.flatten.set (q * sl + r) v := by
  induction segs generalizing q with
  | nil => simp at hq
  | cons s ss ih =>
    have h1 : s.length = sl := h s (by simp)
    have h2 : Uniform sl ss := fun t ht => h t (by simp [ht])
    cases q with
    | zero =>
      simp [h1, hr]
    | succ q =>
      simp only [List.set_cons_succ, List.getElem_cons_succ, List.flatten_cons]
      rw [ih h2 q (by simpa using hq), List.set_append_right]
      · rw [h1, show (q + 1) * sl + r - sl = q * sl + r by rw [Nat.succ_mul]; omega]
      · rw [h1, Nat.succ_mul]; omega

/-- A segment is the corresponding stretch of the flattened list. -/
theorem Uniform.getElem_eq {α : Type _} {sl : Nat} {segs : List (List α)}
    (h : Uniform sl segs) (q : Nat) (hq : q < segs.length) :
    segs[q] = (segs.flatten.drop (q * sl)).take sl := by
  induction segs generalizing q with
  | nil => simp at hq
  | cons s ss ih =>
    have h1 : s.length = sl := h s (by simp)
    have h2 : Uniform sl ss := fun t ht => h t (by simp [ht])
    cases q with
    | zero => simp [← h1]
    | succ q =>
      simp only [List.getElem_cons_succ, List.flatten_cons]
      rw [ih h2 q (by simpa using hq), List.drop_append, h1,
        show (q + 1) * sl - sl = q * sl by rw [Nat.succ_mul]; omega,
        List.drop_eq_nil_of_le (as := s) (by rw [h1, Nat.succ_mul]; omega)]
      simp

namespace SAP

variable {α : Type _}

@[simp] theorem arr_setArr_same (s : SAP α) (k : Bool) (a : SA α) : (s.setArr k a).arr k = a := by
  cases k <;> rfl
@[simp] theorem arr_setArr_not (s : SAP α) (k : Bool) (a : SA α) :
    (s.setArr k a).arr (!k) = s.arr (!k) := by
  cases k <;> rfl
theorem arr_setArr_ne (s : SAP α) {k k' : Bool} (a : SA α) (h : k' ≠ k) :
    (s.setArr k a).arr k' = s.arr k' := by
  cases k <;> cases k' <;> simp at h <;> rfl
@[simp] theorem setArr_sl (s : SAP α) (k : Bool) (a : SA α) : (s.setArr k a).sl = s.sl := by
  cases k <;> rfl
@[simp] theorem setArr_junk (s : SAP α) (k : Bool) (a : SA α) : (s.setArr k a).junk = s.junk := by
  cases k <;> rfl
@[simp] theorem setArr_inSel (s : SAP α) (k : Bool) (a : SA α) : (s.setArr k a).inSel = s.inSel := by
  cases k <;> rfl
@[simp] theorem setArr_outSel (s : SAP α) (k : Bool) (a : SA α) :
    (s.setArr k a).outSel = s.outSel := by
  cases k <;> rfl
@[simp] theorem setArr_setArr (s : SAP α) (k : Bool) (a b : SA α) :
    (s.setArr k a).setArr k b = s.setArr k b := by
  cases k <;> rfl
@[simp] theorem setArr_arr (s : SAP α) (k : Bool) : s.setArr k (s.arr k) = s := by
  cases k <;> rfl

@[simp] theorem outA_setArr_out (s : SAP α) (a : SA α) : (s.setArr s.outSel a).outA = a := by
  simp [outA]

end SAP

/-! ### Well-formed arrays -/

/-- The resting-state invariant of one segmented array. -/
structure SA.WF {α : Type _} (sl : Nat) (a : SA α) : Prop where
  pos : 0 < sl
  nseg : a.nseg = a.segs.length
  uni : Uniform sl a.segs
  fnf0 : 0 ≤ a.fnf
  fnfLt : a.fnf < a.nseg
  fao0 : 0 ≤ a.fao
  faoLe : a.fao ≤ sl

/-- The items held by an array: the first `fnf*sl + fao` slots. -/
def SA.items {α : Type _} (sl : Nat) (a : SA α) : List α :=
  a.segs.flatten.take (a.fnf * sl + a.fao).toNat

theorem SA.WF.total {α : Type _} {sl : Nat} {a : SA α} (h : a.WF sl) :
    ∃ f o : Nat, a.fnf = f ∧ a.fao = o ∧ f < a.segs.length ∧ o ≤ sl ∧
      a.segs.flatten.length = a.segs.length * sl ∧ f * sl + o ≤ a.segs.length * sl := by
  refine ⟨a.fnf.toNat, a.fao.toNat, ?_, ?_, ?_, ?_, h.uni.flatten_length, ?_⟩
  · have := h.fnf0; omega
  · have := h.fao0; omega
  · have := h.fnfLt; have := h.nseg; have := h.fnf0; omega
  · have := h.faoLe; have := h.fao0; omega
  · have h1 : a.fnf.toNat + 1 ≤ a.segs.length := by
      have := h.fnfLt; have := h.nseg; have := h.fnf0; omega
    have h2 : a.fao.toNat ≤ sl := by have := h.faoLe; have := h.fao0; omega
    calc a.fnf.toNat * sl + a.fao.toNat ≤ a.fnf.toNat * sl + sl := by omega
      _ = (a.fnf.toNat + 1) * sl := by rw [Nat.succ_mul]
      _ ≤ _ := Nat.mul_le_mul_right _ h1

theorem SA.WF.items_length {α : Type _} {sl : Nat} {a : SA α} (h : a.WF sl) :
    ((a.items sl).length : Int) = a.fnf * sl + a.fao := by
  obtain ⟨f, o, hf, ho, _, _, hl, hle⟩ := h.total
  simp only [SA.items, List.length_take, hl, hf, ho]
  rw [show ((f : Int) * (sl : Int) + (o : Int)) = ((f * sl + o : Nat) : Int) by push_cast; rfl]
  simp only [Int.toNat_natCast]
  omega

namespace SAP
variable {α : Type _}

theorem load_eq {a : SA α} {sl : Nat} (h : Uniform sl a.segs) (q r : Nat) (hr : r < sl) :
    load a q r = orIndexErr a.segs.flatten[q * sl + r]? := by
  rw [h.flatten_get? q r hr]
  unfold load
  rw [pyGet_nat]
  cases hq : a.segs[q]? with
  | none => rfl
  | some vec => simp [bind, Except.bind, pyGet_nat, orIndexErr]

theorem store_eq {a : SA α} {sl : Nat} (h : Uniform sl a.segs) (q r : Nat)
    (hq : q < a.segs.length) (hr : r < sl) (v : α) :
    ∃ segs', store a q r v = .ok { a with segs := segs' } ∧ Uniform sl segs' ∧
      segs'.length = a.segs.length ∧ segs'.flatten = a.segs.flatten.set (q * sl + r) v := by
  have hlen : (a.segs[q]).length = sl := h _ (List.getElem_mem hq)
  refine ⟨a.segs.set q (a.segs[q].set r v), ?_, h.set _ _ (by simpa using hlen), by simp,
    h.flatten_set q r hq hr v⟩
  unfold store
  rw [pyGet_of_lt hq]
  simp only [bind, Except.bind]
  rw [pySet_of_lt v (by omega)]
  simp only []
  rw [pySet_of_lt _ hq]
  rfl

/-- The container invariant that holds at rest (between API calls), except
after `set_number_of_items(_, 0)`. -/
structure Inv (s : SAP α) : Prop where
  sel : s.inSel = !s.outSel
  out : s.outA.WF s.sl
  inn : s.inA.WF s.sl

/-- The list of items of the container. -/
def contents (s : SAP α) : List α := s.outA.items s.sl

theorem new_wf (sl : Nat) (junk : α) (h : 0 < sl) :
    ({ segs := [newSeg sl junk], fnf := 0, fao := 0, cur := 0, nseg := 1 } : SA α).WF sl where
  pos := h
  nseg := rfl
  uni := by intro s hs; simp at hs; simp [hs, newSeg]
  fnf0 := by simp
  fnfLt := by simp
  fao0 := by simp
  faoLe := by simp

theorem new_inv (sl : Nat) (junk : α) (h : 0 < sl) : (new sl junk).Inv :=
  ⟨rfl, new_wf sl junk h, new_wf sl junk h⟩

@[simp] theorem new_contents (sl : Nat) (junk : α) : (new sl junk).contents = [] := by
  simp [contents, new, outA, arr, SA.items]

/-- "Cursor in step": the condition under which a `push_back` that needs a new
segment does not raise. -/
def Synced (s : SAP α) : Prop := s.outA.cur = s.outA.fnf

end SAP
end Dt
