import Verif.Lemmas.SAP

/-! # What each container operation does to a well-formed container -/

namespace Dt
namespace SAP
variable {α : Type _}

theorem toNat_cast_add (f o sl : Nat) : ((f : Int) * (sl : Int) + (o : Int)).toNat = f * sl + o := by
  rw [show ((f : Int) * (sl : Int) + (o : Int)) = ((f * sl + o : Nat) : Int) by push_cast; rfl,
    Int.toNat_natCast]

/-- Two arrays with the same counters up to a segment switch hold the same items. -/
theorem items_eq_of {sl : Nat} {a b : SA α} (hn : b.fnf * sl + b.fao = a.fnf * sl + a.fao)
    (t : List α) (hf : b.segs.flatten = a.segs.flatten ++ t) (ha : a.WF sl) :
    b.items sl = a.items sl := by
  obtain ⟨f, o, h1, h2, _, _, hl, hle⟩ := ha.total
  unfold SA.items
  rw [hn, hf, h1, h2, toNat_cast_add, List.take_append_of_le_length (by omega)]

/-- Outcome of the segment-switching prologue of `push_back`. -/
theorem pushPrologue_ok {sl : Nat} {junk : α} {a : SA α} (ha : a.WF sl)
    (hp : a.fao < sl ∨ a.cur = a.fnf) :
    ∃ a', pushPrologue sl junk a = .ok a' ∧ a'.WF sl ∧ a'.fao < sl ∧
      a'.items sl = a.items sl ∧ a'.fnf * sl + a'.fao = a.fnf * sl + a.fao ∧
      a'.cur - a'.fnf = a.cur - a.fnf ∧
      a'.nseg = (if a.fao = sl ∧ a.fnf + 1 = a.nseg then a.nseg + 1 else a.nseg) ∧
      (∃ t, a'.segs = a.segs ++ t) := by
  obtain ⟨pos, nseg, uni, fnf0, fnfLt, fao0, faoLe⟩ := ha
  have ha : a.WF sl := ⟨pos, nseg, uni, fnf0, fnfLt, fao0, faoLe⟩
  by_cases hf : a.fao = sl
  · have hc : a.cur = a.fnf := by omega
    by_cases hlt : a.cur + 1 < a.nseg
    · refine ⟨{ a with cur := a.cur + 1, fnf := a.fnf + 1, fao := 0 }, ?_, ?_, ?_, ?_, ?_, ?_, ?_, ⟨[], by simp⟩⟩
      · unfold pushPrologue
        rw [if_pos hf]
        dsimp only
        rw [if_pos hlt, if_pos (by dsimp only; omega)]
      · exact ⟨pos, nseg, uni, by simp; omega, by simp; omega, by simp, by simp⟩
      · simpa using pos
      · refine items_eq_of (t := []) ?_ (by simp) ha
        simp only [hf, Int.add_mul]; omega
      · simp only [hf, Int.add_mul]; omega
      · simp; omega
      · simp; omega
    · refine ⟨{ a with cur := a.cur + 1, fnf := a.fnf + 1, fao := 0, nseg := a.nseg + 1,
                       segs := a.segs ++ [newSeg sl junk] }, ?_, ?_, ?_, ?_, ?_, ?_, ?_,
              ⟨[newSeg sl junk], by simp⟩⟩
      · unfold pushPrologue
        rw [if_pos hf]
        dsimp only
        rw [if_neg hlt, if_pos (by dsimp only [addSegment]; omega)]
        rfl
      · exact ⟨pos, by simp [nseg], uni.append _ (by simp [newSeg]), by simp; omega,
          by simp; omega, by simp, by simp⟩
      · simpa using pos
      · refine items_eq_of (t := newSeg sl junk) ?_ (by simp) ha
        simp only [hf, Int.add_mul]; omega
      · simp only [hf, Int.add_mul]; omega
      · simp; omega
      · simp only []
        rw [if_pos ⟨hf, by omega⟩]
  · refine ⟨a, by simp [pushPrologue, hf], ha, by omega, rfl, rfl, rfl, by simp [hf], ⟨[], by simp⟩⟩

theorem pushPrologue_err {sl : Nat} {junk : α} {a : SA α} (hf : a.fao = sl)
    (hc : a.cur ≠ a.fnf) : pushPrologue sl junk a = .error .assertion := by
  unfold pushPrologue
  rw [if_pos hf]
  dsimp only
  split
  · rw [if_neg (by dsimp only; omega)]
  · rw [if_neg (by dsimp only [addSegment]; omega)]

/-- `push_back` on a container whose cursor permits it appends the item. -/
theorem pushBack_ok {s : SAP α} (h : s.Inv) (x : α)
    (hp : s.outA.fao < s.sl ∨ s.Synced) :
    ∃ s', s.pushBack x = .ok (s', (((s.contents.length % s.sl : Nat) : Int),
        (s.contents.length : Int))) ∧
      s'.Inv ∧ s'.contents = s.contents ++ [x] ∧ s'.sl = s.sl ∧ s'.junk = s.junk ∧
      s'.inA = s.inA ∧ s'.inSel = s.inSel ∧ s'.outSel = s.outSel ∧
      s'.outA.cur - s'.outA.fnf = s.outA.cur - s.outA.fnf ∧
      s'.outA.nseg = (if s.outA.fao = s.sl ∧ s.outA.fnf + 1 = s.outA.nseg
        then s.outA.nseg + 1 else s.outA.nseg) ∧ 0 < s'.outA.fao := by
  obtain ⟨a, e1, wf, hlt, hit, hcnt, hcur, hns, hpre⟩ := pushPrologue_ok (junk := s.junk) h.out hp
  obtain ⟨f, o, hf, ho, hfl, hol, hfl2, hle⟩ := wf.total
  have hol' : o < s.sl := by omega
  obtain ⟨segs', e2, uni', len', flat'⟩ := store_eq wf.uni f o hfl hol' x
  have hlen : ((s.contents).length : Int) = a.fnf * s.sl + a.fao := by
    rw [contents, h.out.items_length, hcnt]
  have hlenN : s.contents.length = f * s.sl + o := by
    rw [hf, ho] at hlen
    exact_mod_cast hlen
  have hsel := h.sel
  refine ⟨s.setArr s.outSel { a with segs := segs', fao := a.fao + 1 }, ?_, ?_, ?_, by simp, by simp,
    ?_, by simp, by simp, ?_, ?_, ?_⟩
  · unfold pushBack
    rw [e1]
    simp only [bind, Except.bind]
    rw [hf, ho, e2]
    simp only [pure, Except.pure, Except.ok.injEq, Prod.mk.injEq]
    rw [hlenN]
    constructor
    · simp [ho]
      congr 1
      rw [hf]
    · refine ⟨?_, ?_⟩
      · rw [show (f * s.sl + o) % s.sl = o by
          rw [Nat.mul_comm, Nat.mul_add_mod, Nat.mod_eq_of_lt hol']]
        simp [ho]
      · simp [hf, ho]
  · refine ⟨by simpa using hsel, ?_, ?_⟩
    · simp only [setArr_sl]
      rw [outA_setArr_out]
      exact ⟨wf.pos, by simp [len', wf.nseg], uni', wf.fnf0, wf.fnfLt, by have := wf.fao0; simp; omega,
        by simp; omega⟩
    · simp only [setArr_sl, inA, setArr_inSel, hsel, arr_setArr_not]
      have := h.inn
      simpa [inA, hsel] using this
  · unfold contents
    rw [outA_setArr_out, setArr_sl, ← hit]
    unfold SA.items
    simp only [hf, ho, flat']
    rw [toNat_cast_add, show ((o : Int) + 1) = ((o + 1 : Nat) : Int) by push_cast; rfl, toNat_cast_add]
    have hb : f * s.sl + o < a.segs.flatten.length := by
      rw [hfl2]
      calc f * s.sl + o < f * s.sl + s.sl := by omega
        _ = (f + 1) * s.sl := by rw [Nat.succ_mul]
        _ ≤ _ := Nat.mul_le_mul_right _ hfl
    rw [← Nat.add_assoc, List.take_add_one, List.take_set_of_le (by omega)]
    rw [List.getElem?_set_self hb]
    rfl
  · simp [inA, hsel]
  · rw [outA_setArr_out]
    simp only []
    exact hcur
  · rw [outA_setArr_out]
    exact hns
  · rw [outA_setArr_out]
    have := wf.fao0
    simp only []
    omega

/-- `push_back` raises exactly in the other case. -/
theorem pushBack_err {s : SAP α} (x : α) (hf : s.outA.fao = s.sl) (hs : ¬ s.Synced) :
    s.pushBack x = .error .assertion := by
  unfold pushBack
  rw [pushPrologue_err hf hs]
  rfl

end SAP
end Dt
