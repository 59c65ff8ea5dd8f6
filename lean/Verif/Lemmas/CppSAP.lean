import Verif.Model.CppSAP
import Verif.Lemmas.SAP
import Mathlib.Algebra.Order.Ring.Int

/-! # The C++ container refines the Python container -/

set_option linter.unusedSectionVars false

namespace Dt
variable {α : Type}

/-- The Python object with the same member values. -/
def CSA.py (a : CSA α) : SA α := ⟨a.segs, a.fnf, a.fao, a.cur, a.nseg⟩

def CSAP.py (s : CSAP α) : SAP α := ⟨s.sl, s.junk, s.a0.py, s.a1.py, s.inSel, s.outSel⟩

theorem CSAP.py_arr (s : CSAP α) (k : Bool) : s.py.arr k = (s.arr k).py := by
  cases k <;> rfl

theorem CSAP.py_setArr (s : CSAP α) (k : Bool) (a : CSA α) :
    (s.setArr k a).py = s.py.setArr k a.py := by
  cases k <;> rfl

theorem CSAP.py_sel (s : CSAP α) (io : InOut) : s.py.sel io = s.sel io := by
  cases io <;> rfl

theorem cGet_py {β : Type} (xs : List β) {i : Int} (hi : 0 ≤ i) :
    cGet xs i = match pyGet xs i with | .ok b => .ok b | .error _ => .error .ub := by
  unfold cGet pyGet
  rw [if_pos hi, if_pos hi]
  cases xs[i.toNat]? <;> rfl

theorem cSet_py {β : Type} (xs : List β) {i : Int} (hi : 0 ≤ i) (v : β) :
    cSet xs i v = match pySet xs i v with | .ok b => .ok b | .error _ => .error .ub := by
  unfold cSet pySet
  rw [if_pos hi, if_pos hi]
  split <;> rfl

/-- The relation between the two outcomes of a call. -/
def Same (p : Except Err (SAP α × Reply α)) (c : Except Err (CSAP α × Reply α)) : Prop :=
  match p, c with
  | .ok (s, r), .ok (s', r') => s = s'.py ∧ r = r'
  | .error _, .error _ => True
  | _, _ => False

/-- Calls with arguments for which the containers are meant to agree. -/
def Method.Safe : Method α → Prop
  | .get i => 0 ≤ i
  | .setNumber _ n => 1 ≤ n ∧ n < 4294967296
  | .write v n i _ => 0 ≤ v.seg ∧ 0 ≤ i ∧ i < n
  | .readN v _ => 0 ≤ v.seg
  | .readWhole _ _ => False
  | _ => True

theorem py_addSegment (sl : Nat) (junk : α) (a : CSA α) :
    (CSAP.addSegment sl junk a).py = SAP.addSegment sl junk a.py := by
  simp [CSAP.addSegment, SAP.addSegment, CSA.py, SAP.newSeg]

theorem py_pushPrologue (sl : Nat) (junk : α) (a : CSA α) :
    SAP.pushPrologue sl junk a.py =
      if CSAP.pushAssert sl a (CSAP.pushSlot sl junk a) then
        .ok (CSAP.pushSlot sl junk a).py else .error .assertion := by
  obtain ⟨g, f, o, c, n⟩ := a
  change SAP.pushPrologue sl junk ⟨g, f, o, c, n⟩ = _
  unfold SAP.pushPrologue CSAP.pushAssert CSAP.pushSlot
  simp only [CSA.py]
  by_cases h : o = sl
  · have h' : (o : Int) = (sl : Int) := by omega
    rw [if_pos h', if_pos h]
    by_cases hn : c + 1 < n
    · have hn' : (c : Int) + 1 < (n : Int) := by omega
      simp only [if_pos hn, if_pos hn']
      by_cases h2 : f + 1 = c + 1
      · have h2' : (f : Int) + 1 = (c : Int) + 1 := by omega
        rw [if_pos h2', if_pos (by simp [h2])]
        simp
      · have h2' : ¬ (f : Int) + 1 = (c : Int) + 1 := by omega
        rw [if_neg h2', if_neg (by simp [h]; omega)]
    · have hn' : ¬ (c : Int) + 1 < (n : Int) := by omega
      simp only [if_neg hn, if_neg hn', CSAP.addSegment, SAP.addSegment]
      by_cases h2 : f + 1 = c + 1
      · have h2' : (f : Int) + 1 = (c : Int) + 1 := by omega
        split
        · rw [if_pos (by simp [h2])]
          simp [SAP.newSeg]
        · exact absurd h2' (by assumption)
      · have h2' : ¬ (f : Int) + 1 = (c : Int) + 1 := by omega
        split
        · exact absurd (by assumption) h2'
        · rw [if_neg (by simp [h]; omega)]
  · have h' : ¬ (o : Int) = (sl : Int) := by omega
    rw [if_neg h', if_neg h, if_pos (by simp [h])]

theorem same_pushStore (s : CSAP α) (a : CSA α) (x : α) :
    Same (do
        let a' ← SAP.store a.py a.py.fnf a.py.fao x
        return (s.py.setArr s.outSel { a' with fao := a'.fao + 1 },
          .pair (a'.fao + 1 - 1) (a'.fnf * s.sl + a'.fao)))
      (do
        let (s', (i, j)) ← CSAP.pushStore s a x
        return (s', .pair i j)) := by
  unfold SAP.store CSAP.pushStore
  have h1 : (0 : Int) ≤ (a.fnf : Int) := by omega
  have h2 : (0 : Int) ≤ (a.fao : Int) := by omega
  simp only [CSA.py, cGet_py _ h1, cSet_py _ h1, cSet_py _ h2]
  cases e1 : pyGet a.segs (a.fnf : Int) with
  | error e => simp [bind, Except.bind, Same]
  | ok vec =>
    simp only [bind, Except.bind]
    cases e2 : pySet vec (a.fao : Int) x with
    | error e => simp [Same]
    | ok vec' =>
      simp only
      cases e3 : pySet a.segs (a.fnf : Int) vec' with
      | error e => simp [Same]
      | ok segs' =>
        simp only [pure, Except.pure, Same, Reply.pair.injEq]
        refine ⟨?_, by omega, trivial⟩
        rw [CSAP.py_setArr]
        simp [CSA.py]

theorem same_exec {s : CSAP α} (hsl : 0 < s.sl) {m : Method α} (hm : m.Safe) :
    Same (pyExec s.py m) (cppExec CSAP.pushArray s m) := by
  cases m with
  | push x =>
    have := py_pushPrologue s.sl s.junk (s.arr s.outSel)
    simp only [pyExec, cppExec, SAP.pushBack, CSAP.pushArray]
    have e : s.py.outA = (s.arr s.outSel).py := CSAP.py_arr s s.outSel
    rw [e, show s.py.sl = s.sl from rfl, show s.py.junk = s.junk from rfl, this]
    split
    · have h := same_pushStore s (CSAP.pushSlot s.sl s.junk (s.arr s.outSel)) x
      simp only [bind, Except.bind] at h ⊢
      cases e1 : SAP.store (CSAP.pushSlot s.sl s.junk (s.arr s.outSel)).py
          (CSAP.pushSlot s.sl s.junk (s.arr s.outSel)).py.fnf
          (CSAP.pushSlot s.sl s.junk (s.arr s.outSel)).py.fao x with
      | error _ => rw [e1] at h; exact h
      | ok a' => rw [e1] at h; exact h
    · simp [bind, Except.bind, Same]
  | get i =>
    simp only [Method.Safe] at hm
    simp only [pyExec, cppExec, SAP.getItem, CSAP.getItem, pyDivmod, SAP.load]
    have e : s.py.outA = (s.arr s.outSel).py := CSAP.py_arr s s.outSel
    have e1 : Int.fdiv i s.sl = Int.tdiv i s.sl := Int.fdiv_eq_tdiv_of_nonneg hm (by omega)
    have e2 : Int.fmod i s.sl = Int.tmod i s.sl := Int.fmod_eq_tmod_of_nonneg hm (by omega)
    have p1 : 0 ≤ Int.tdiv i s.sl := Int.tdiv_nonneg hm (by omega)
    have p2 : 0 ≤ Int.tmod i s.sl := Int.tmod_nonneg _ hm
    rw [e, show s.py.sl = s.sl from rfl, e1, e2, cGet_py _ p1]
    cases h1 : pyGet (s.arr s.outSel).segs (Int.tdiv i s.sl) with
    | error _ => simp [CSA.py, h1, bind, Except.bind, Same]
    | ok vec =>
      simp only [CSA.py, h1, bind, Except.bind]
      rw [cGet_py _ p2]
      cases h2 : pyGet vec (Int.tmod i s.sl) <;> simp [Same, pure, Except.pure]
  | count =>
    simp only [pyExec, cppExec, pure, Except.pure, Same, true_and]
    simp only [SAP.getNumberOfItems, CSAP.getNumberOfItems]
    rw [show s.py.outA = (s.arr s.outSel).py from CSAP.py_arr s s.outSel]; rfl
  | capacity =>
    simp only [pyExec, cppExec, pure, Except.pure, Same, true_and]
    simp only [SAP.getCapacity, CSAP.getCapacity]
    rw [show s.py.outA = (s.arr s.outSel).py from CSAP.py_arr s s.outSel,
      show s.py.inA = (s.arr s.inSel).py from CSAP.py_arr s s.inSel]; rfl
  | segments =>
    simp only [pyExec, cppExec, pure, Except.pure, Same, true_and]
    simp only [SAP.getNumberOfSegments, CSAP.getNumberOfSegments]
    rw [show s.py.outA = (s.arr s.outSel).py from CSAP.py_arr s s.outSel,
      show s.py.inA = (s.arr s.inSel).py from CSAP.py_arr s s.inSel]; rfl
  | setNumber io n =>
    obtain ⟨h1, h2⟩ := hm
    simp only [pyExec, cppExec, pure, Except.pure, Same, and_true]
    simp only [SAP.setNumberOfItems, CSAP.setNumberOfItems, pyDivmod]
    rw [CSAP.py_setArr, CSAP.py_sel, CSAP.py_arr, show s.py.sl = s.sl from rfl]
    have h0 : 0 ≤ n - 1 := by omega
    rw [Int.fdiv_eq_tdiv_of_nonneg h0 (by omega), Int.fmod_eq_tmod_of_nonneg h0 (by omega)]
    have p1 : 0 ≤ Int.tdiv (n - 1) s.sl := Int.tdiv_nonneg h0 (by omega)
    have p2 : 0 ≤ Int.tmod (n - 1) s.sl := Int.tmod_nonneg _ h0
    have q1 : Int.tdiv (n - 1) s.sl ≤ n - 1 := Int.tdiv_le_self _ h0
    have q2 : Int.tmod (n - 1) s.sl ≤ n - 1 := by
      have := Int.tmod_lt_of_pos (n - 1) (b := s.sl) (by omega); have h3 := Int.mul_tdiv_add_tmod (n - 1) s.sl; have := Int.mul_nonneg (Int.natCast_nonneg s.sl) p1; omega
    have r1 : ((toUnsigned (Int.tdiv (n - 1) s.sl) : Nat) : Int) = Int.tdiv (n - 1) s.sl := by
      unfold toUnsigned
      rw [Int.emod_eq_of_lt p1 (by omega), Int.toNat_of_nonneg p1]
    have r2 : ((toUnsigned (Int.tmod (n - 1) s.sl + 1) : Nat) : Int) =
        Int.tmod (n - 1) s.sl + 1 := by
      unfold toUnsigned
      rw [Int.emod_eq_of_lt (by omega) (by omega), Int.toNat_of_nonneg (by omega)]
    simp only [CSA.py, r1, r2]
  | initOut =>
    simp only [pyExec, cppExec, pure, Except.pure, Same]
    have e : s.py.outA = (s.arr s.outSel).py := CSAP.py_arr s s.outSel
    simp only [SAP.initOutLoop, CSAP.initOutLoop, e, SAP.firstCount]
    have hf : ((s.arr s.outSel).py.fnf = 0) ↔ (s.arr s.outSel).fnf = 0 := by simp [CSA.py]
    have ho : ((s.arr s.outSel).py.fao = 0) ↔ (s.arr s.outSel).fao = 0 := by simp [CSA.py]
    simp only [hf, ho]
    by_cases c1 : (s.arr s.outSel).fnf = 0
    · by_cases c2 : (s.arr s.outSel).fao = 0
      · rw [if_pos ⟨c1, c2⟩, if_pos c1, if_pos c2]
        exact ⟨by rw [CSAP.py_setArr]; rfl, rfl⟩
      · rw [if_neg (fun h => c2 h.2), if_pos c1, if_neg c2, if_pos c1]
        exact ⟨by rw [CSAP.py_setArr]; rfl, rfl⟩
    · rw [if_neg (fun h => c1 h.1), if_neg c1, if_neg c1]
      exact ⟨by rw [CSAP.py_setArr]; rfl, rfl⟩
  | initInout =>
    simp only [pyExec, cppExec, pure, Except.pure, Same]
    obtain ⟨sl, junk, a0, a1, i, o⟩ := s
    obtain ⟨g0, f0, o0, c0, n0⟩ := a0
    obtain ⟨g1, f1, o1, c1, n1⟩ := a1
    simp only [SAP.initInoutLoop, CSAP.initInoutLoop, CSAP.py, CSA.py]
    cases i <;> cases o <;>
      simp only [SAP.setArr, SAP.arr, CSAP.setArr, CSAP.arr, Bool.not_true, Bool.not_false, if_true,
        Bool.false_eq_true, if_false, SAP.firstCount, Nat.cast_eq_zero, Nat.cast_zero, and_self] <;>
      (try by_cases e1 : f0 = 0) <;> (try by_cases e2 : o0 = 0) <;>
      (try by_cases e3 : f1 = 0) <;> (try by_cases e4 : o1 = 0) <;>
      simp [*, CSAP.py, CSA.py]
  | next io =>
    simp only [pyExec, cppExec, pure, Except.pure, Same]
    simp only [SAP.getNextSegment, CSAP.getNextSegment, CSAP.py_sel, CSAP.py_arr]
    have hlt : ((s.arr (s.sel io)).py.fnf < (s.arr (s.sel io)).py.cur + 1) ↔
        (s.arr (s.sel io)).cur + 1 > (s.arr (s.sel io)).fnf := by simp [CSA.py]; omega
    have heq : ((s.arr (s.sel io)).py.fnf = (s.arr (s.sel io)).py.cur + 1) ↔
        (s.arr (s.sel io)).fnf = (s.arr (s.sel io)).cur + 1 := by simp [CSA.py]; omega
    have ho : ((s.arr (s.sel io)).py.fao = 0) ↔ (s.arr (s.sel io)).fao = 0 := by simp [CSA.py]
    simp only [hlt, heq, ho]
    by_cases c1 : (s.arr (s.sel io)).cur + 1 > (s.arr (s.sel io)).fnf
    · rw [if_pos c1, if_pos c1]; exact ⟨by rw [CSAP.py_setArr]; rfl, rfl⟩
    · rw [if_neg c1, if_neg c1]
      by_cases c2 : (s.arr (s.sel io)).fnf = (s.arr (s.sel io)).cur + 1
      · rw [if_pos c2, if_pos c2]
        by_cases c3 : (s.arr (s.sel io)).fao = 0
        · rw [if_pos c3, if_pos c3]; exact ⟨by rw [CSAP.py_setArr]; rfl, rfl⟩
        · rw [if_neg c3, if_neg c3]; exact ⟨by rw [CSAP.py_setArr]; rfl, rfl⟩
      · rw [if_neg c2, if_neg c2]; exact ⟨by rw [CSAP.py_setArr]; rfl, rfl⟩
  | nextOut =>
    simp only [pyExec, cppExec, SAP.getNextOutSegment, CSAP.getNextOutSegment]
    rw [show s.py.outA = (s.arr s.outSel).py from CSAP.py_arr s s.outSel,
      show s.py.sl = s.sl from rfl, show s.py.junk = s.junk from rfl,
      show s.py.outSel = s.outSel from rfl]
    generalize s.arr s.outSel = a
    have hp : SAP.nextOutPrologue s.sl s.junk a.py =
        (if a.cur + 1 < a.nseg then
          (if a.fnf + 1 < a.nseg then { a with cur := a.cur + 1, fnf := a.fnf + 1, fao := 0 }
            else { a with cur := a.cur + 1 })
        else CSAP.addSegment s.sl s.junk { a with cur := a.cur + 1 } : CSA α).py := by
      unfold SAP.nextOutPrologue
      have h1 : (a.py.cur + 1 < (a.py.nseg : Int)) ↔ a.cur + 1 < a.nseg := by
        simp [CSA.py]; omega
      have h2 : (a.py.fnf + 1 < (a.py.nseg : Int)) ↔ a.fnf + 1 < a.nseg := by
        simp [CSA.py]; omega
      simp only [h1, h2]
      split
      · split <;> rfl
      · rw [py_addSegment]; rfl
    rw [hp]
    generalize (if a.cur + 1 < a.nseg then
          (if a.fnf + 1 < a.nseg then { a with cur := a.cur + 1, fnf := a.fnf + 1, fao := 0 }
            else { a with cur := a.cur + 1 })
        else CSAP.addSegment s.sl s.junk { a with cur := a.cur + 1 } : CSA α) = a1
    have he : (a1.py.fnf = a1.py.cur) ↔ a1.fnf = a1.cur := by simp [CSA.py]
    simp only [he]
    split
    · simp only [bind, Except.bind]
      rw [cGet_py _ (by omega)]
      simp only [CSA.py]
      cases hg : pyGet a1.segs (a1.cur : Int) with
      | error _ => simp [Same]
      | ok _ =>
        simp only [pure, Except.pure, Same, and_true]
        rw [CSAP.py_setArr]; rfl
    · simp [bind, Except.bind, throw, throwThe, MonadExceptOf.throw, Same]
  | fullIndex i io =>
    simp only [pyExec, cppExec, pure, Except.pure, Same, true_and]
    simp only [SAP.getFullIndex, CSAP.getFullIndex, CSAP.py_sel, CSAP.py_arr]; rfl
  | fullIndices i j =>
    simp only [pyExec, cppExec, pure, Except.pure, Same, true_and]
    simp only [SAP.getFullIndices, CSAP.getFullIndices]
    rw [show s.py.outA = (s.arr s.outSel).py from CSAP.py_arr s s.outSel,
      show s.py.inA = (s.arr s.inSel).py from CSAP.py_arr s s.inSel]; rfl
  | write v n i x =>
    obtain ⟨h1, h2, h3⟩ := hm
    simp only [pyExec, cppExec, if_pos h3, SAP.viewSet, CSAP.viewSet, SAP.store, CSAP.py_arr]
    rw [cGet_py _ h1]
    simp only [CSA.py]
    cases e1 : pyGet (s.arr v.arr).segs v.seg with
    | error _ => simp [bind, Except.bind, Same]
    | ok vec =>
      simp only [bind, Except.bind]
      rw [cSet_py _ h2]
      cases e2 : pySet vec i x with
      | error _ => simp [Same]
      | ok vec' =>
        simp only
        rw [cSet_py _ h1]
        cases e3 : pySet (s.arr v.arr).segs v.seg vec' with
        | error _ => simp [Same]
        | ok segs' =>
          simp only [pure, Except.pure, Same, and_true]
          rw [CSAP.py_setArr]; rfl
  | readN v n =>
    simp only [Method.Safe] at hm
    simp only [pyExec, cppExec, SAP.viewItems, CSAP.viewAll, CSAP.py_arr]
    rw [cGet_py _ hm]
    simp only [CSA.py]
    cases e1 : pyGet (s.arr v.arr).segs v.seg <;> simp [bind, Except.bind, Same, pure, Except.pure]
  | readWhole v n => exact absurd hm (by simp [Method.Safe])

theorem CSAP.setArr_sl (s : CSAP α) (k : Bool) (a : CSA α) : (s.setArr k a).sl = s.sl := by
  cases k <;> rfl

end Dt
