import Verif.Lemmas.CppSAP
import Verif.Lemmas.Species
import Verif.Props.Field
import Mathlib.Algebra.Order.Ring.Rat

/-!
# Properties of the C++ container (C10, C59)
-/

set_option linter.unusedSectionVars false

namespace Dt
variable {α : Type}

/-! ### C10 -/

theorem cppExec_sl (pushB : CSAP α → α → Except Err (CSAP α × (Int × Int)))
    (hp : ∀ s x s' r, pushB s x = .ok (s', r) → s'.sl = s.sl)
    {s s' : CSAP α} {m : Method α} {r : Reply α} (h : cppExec pushB s m = .ok (s', r)) :
    s'.sl = s.sl := by
  cases m <;> simp only [cppExec, bind, Except.bind, pure, Except.pure] at h
  case push x =>
    split at h
    · cases h
    · rename_i v e
      obtain ⟨a, b⟩ := v
      simp only [Except.ok.injEq, Prod.mk.injEq] at h
      rw [← h.1]; exact hp _ _ _ _ e
  case get i =>
    split at h
    · cases h
    · simp only [Except.ok.injEq, Prod.mk.injEq] at h; rw [← h.1]
  case setNumber io n =>
    simp only [Except.ok.injEq, Prod.mk.injEq] at h
    rw [← h.1]; simp only [CSAP.setNumberOfItems, CSAP.setArr_sl]
  case initOut =>
    simp only [Except.ok.injEq, Prod.mk.injEq] at h
    rw [← h.1]; simp only [CSAP.initOutLoop]; split <;> (try split) <;> simp [CSAP.setArr_sl]
  case initInout =>
    simp only [Except.ok.injEq, Prod.mk.injEq] at h
    rw [← h.1]; simp only [CSAP.initInoutLoop]; split <;> (try split) <;> simp [CSAP.setArr_sl]
  case next io =>
    simp only [Except.ok.injEq, Prod.mk.injEq] at h
    rw [← h.1]; simp only [CSAP.getNextSegment]
    split <;> (try split) <;> (try split) <;> simp [CSAP.setArr_sl]
  case nextOut =>
    split at h
    · cases h
    · rename_i v e
      obtain ⟨a, b⟩ := v
      simp only [Except.ok.injEq, Prod.mk.injEq] at h
      rw [← h.1]
      unfold CSAP.getNextOutSegment at e
      dsimp only at e
      generalize (if (s.arr s.outSel).cur + 1 < (s.arr s.outSel).nseg then _ else _ : CSA α) = a1 at e
      by_cases hc : a1.fnf = a1.cur
      · rw [if_pos hc] at e
        simp only [bind, Except.bind, pure, Except.pure] at e
        split at e
        · cases e
        · simp only [Except.ok.injEq, Prod.mk.injEq] at e
          rw [← e.1]; simp [CSAP.setArr_sl]
      · rw [if_neg hc] at e; cases e
  case write v n i x =>
    split at h
    · cases h
    · rename_i w e
      simp only [Except.ok.injEq, Prod.mk.injEq] at h
      rw [← h.1]
      simp only [CSAP.viewSet, bind, Except.bind, pure, Except.pure] at e
      split at e
      · cases e
      · split at e
        · cases e
        · split at e
          · cases e
          · simp only [Except.ok.injEq] at e; rw [← e]; simp [CSAP.setArr_sl]
  case readN v n =>
    split at h
    · cases h
    · simp only [Except.ok.injEq, Prod.mk.injEq] at h; rw [← h.1]
  case readWhole v n =>
    split at h
    · cases h
    · simp only [Except.ok.injEq, Prod.mk.injEq] at h; rw [← h.1]
  all_goals (simp only [Except.ok.injEq, Prod.mk.injEq] at h; rw [← h.1])

theorem pushStore_sl {s s' : CSAP α} {a : CSA α} {x : α} {r : Int × Int}
    (h : CSAP.pushStore s a x = .ok (s', r)) : s'.sl = s.sl := by
  simp only [CSAP.pushStore, bind, Except.bind, pure, Except.pure] at h
  split at h
  · cases h
  · split at h
    · cases h
    · split at h
      · cases h
      · simp only [Except.ok.injEq, Prod.mk.injEq] at h; rw [← h.1]; simp [CSAP.setArr_sl]

theorem pushArray_sl (s : CSAP α) (x : α) (s' : CSAP α) (r : Int × Int)
    (h : s.pushArray x = .ok (s', r)) : s'.sl = s.sl := by
  simp only [CSAP.pushArray] at h
  split at h
  · exact pushStore_sl h
  · cases h

/-- Driven by the same history, the C++ container (with the array overload of `push_back`) gives
the same replies as the Python container and both stop at the same call, if at all. Missing: the
calls excluded by `Method.Safe`, for which see the `C10_false_` theorems. -/
theorem C10_same_history_partial (sl : Nat) (hsl : 0 < sl) (junk : α) (ms : List (Method α))
    (hm : ∀ m ∈ ms, m.Safe) :
    let p := runHist pyExec (SAP.new sl junk) ms
    let c := runHist (cppExec CSAP.pushArray) (CSAP.new sl junk) ms
    p.1 = c.1 ∧ (∀ s, p.2 = .ok s → ∃ s', c.2 = .ok s' ∧ s = s'.py) ∧
      (∀ e, p.2 = .error e → ∃ e', c.2 = .error e') := by
  have hnew : (CSAP.new sl junk).py = SAP.new sl junk := rfl
  have hs : (CSAP.new sl junk).sl = sl := rfl
  rw [← hnew]
  generalize CSAP.new sl junk = c at hs
  clear hnew
  induction ms generalizing c with
  | nil => exact ⟨rfl, fun s h => ⟨c, rfl, by simpa [runHist] using h.symm⟩,
      fun e h => by simp [runHist] at h⟩
  | cons m ms ih =>
    have h := same_exec (s := c) (by omega) (hm m (by simp))
    simp only [runHist]
    unfold Same at h
    cases e1 : pyExec c.py m with
    | error e =>
      cases e2 : cppExec CSAP.pushArray c m with
      | error e' =>
        exact ⟨rfl, fun s h => (by simp at h), fun _ _ => ⟨e', rfl⟩⟩
      | ok v => rw [e1, e2] at h; exact h.elim
    | ok v =>
      obtain ⟨s1, r1⟩ := v
      cases e2 : cppExec CSAP.pushArray c m with
      | error e' => rw [e1, e2] at h; exact h.elim
      | ok w =>
        obtain ⟨c1, r2⟩ := w
        rw [e1, e2] at h
        obtain ⟨rfl, rfl⟩ := h
        obtain ⟨h1, h2, h3⟩ := ih (fun m hm' => hm m (List.mem_cons_of_mem _ hm')) c1
          (by rw [cppExec_sl _ pushArray_sl e2, hs])
        dsimp only
        exact ⟨by rw [h1], h2, h3⟩

/-- The tuple and list overloads of `push_back` have no assertion: they do the same as the array
overload as long as that one does not stop. -/
theorem C10_overloads_partial (s : CSAP α) (ms : List (Method α)) (s' : CSAP α)
    (h : (runHist (cppExec CSAP.pushArray) s ms).2 = .ok s') :
    runHist (cppExec CSAP.pushList) s ms = runHist (cppExec CSAP.pushArray) s ms := by
  induction ms generalizing s with
  | nil => rfl
  | cons m ms ih =>
    have hstep : ∀ v, cppExec CSAP.pushArray s m = .ok v → cppExec CSAP.pushList s m = .ok v := by
      intro v hv
      cases m <;> try exact hv
      rename_i x
      simp only [cppExec, CSAP.pushArray, CSAP.pushList] at hv ⊢
      split at hv
      · exact hv
      · simp [bind, Except.bind] at hv
    simp only [runHist] at h ⊢
    cases e1 : cppExec CSAP.pushArray s m with
    | error e => rw [e1] at h; cases h
    | ok v =>
      rw [e1] at h
      rw [hstep v e1]
      obtain ⟨s1, r⟩ := v
      simp only at h ⊢
      rw [ih s1 h]

/-- Histories used below. -/
def zeroHist : List (Method Nat) := [.push 7, .setNumber .Out 0, .initOut]

/-- After `set_number_of_items("out", 0)` a loop over the Python container visits a segment of old
items, a loop over the C++ container visits none. -/
theorem C10_false_zero :
    (runHist pyExec (SAP.new 2 0) zeroHist).1 =
      [.pair 0 0, .unit, .seg 2 (some ⟨false, 0⟩)] ∧
    (runHist (cppExec CSAP.pushArray) (CSAP.new 2 0) zeroHist).1 =
      [.pair 0 0, .unit, .seg 0 none] := by decide +kernel

/-- With segments of length 1 the C++ counters are wrong as well: the number of items is
4294967295 * 1 + 1. -/
theorem C10_false_zero_length_1 :
    (runHist (cppExec CSAP.pushArray) (CSAP.new 1 0) [.push 7, .setNumber .Out 0, .count]).1 =
      [.pair 0 0, .unit, .int 4294967296] ∧
    (runHist pyExec (SAP.new 1 0) [.push 7, .setNumber .Out 0, .count]).1 =
      [.pair 0 0, .unit, .int 0] := by decide +kernel

/-- The array returned by a loop call has only the stored items in Python; in C++ it is the whole
segment. -/
theorem C10_false_array :
    (runHist pyExec (SAP.new 3 0) [.push 7, .initOut, .readWhole ⟨false, 0⟩ 1]).1 =
      [.pair 0 0, .seg 1 (some ⟨false, 0⟩), .items [7]] ∧
    (runHist (cppExec CSAP.pushArray) (CSAP.new 3 0)
        [.push 7, .initOut, .readWhole ⟨false, 0⟩ 1]).1 =
      [.pair 0 0, .seg 1 (some ⟨false, 0⟩), .items [7, 0, 0]] := by decide +kernel

/-- A push into a new segment after a completed read loop raises in Python, and with the array
overload in C++, but not with the list overload. -/
theorem C10_false_push_after_read :
    let h : List (Method Nat) := [.push 7, .initOut, .next .Out, .push 8, .count]
    runHist pyExec (SAP.new 1 0) h =
      ([.pair 0 0, .seg 1 (some ⟨false, 0⟩), .seg 0 none], .error .assertion) ∧
    (runHist (cppExec CSAP.pushArray) (CSAP.new 1 0) h).2 = .error .abort ∧
    (runHist (cppExec CSAP.pushList) (CSAP.new 1 0) h).1 =
      [.pair 0 0, .seg 1 (some ⟨false, 0⟩), .seg 0 none, .pair 0 1, .int 2] := by decide +kernel

/-- After an abandoned read loop the list overload writes outside of the list of segments. -/
theorem C10_false_out_of_bounds :
    let h : List (Method Nat) := [.push 7, .push 8, .push 9, .initOut, .push 10]
    (runHist (cppExec CSAP.pushList) (CSAP.new 1 0) h).2 = .error .ub ∧
    (runHist pyExec (SAP.new 1 0) h).2 = .error .assertion := by decide +kernel

/-- A safe history that grows, swaps, writes and reads. -/
example : (∀ m ∈ ([.push 1, .push 2, .push 3, .initInout, .write ⟨true, 0⟩ 2 0 5, .setNumber .Out 1,
      .initOut, .readN ⟨true, 0⟩ 1, .count] : List (Method Nat)), m.Safe) ∧
    (runHist pyExec (SAP.new 2 0) [.push 1, .push 2, .push 3, .initInout, .write ⟨true, 0⟩ 2 0 5,
      .setNumber .Out 1, .initOut, .readN ⟨true, 0⟩ 1, .count]).1 =
    [.pair 0 0, .pair 1 1, .pair 0 2, .segs2 2 (some (⟨false, 0⟩, ⟨true, 0⟩)), .unit, .unit,
      .seg 1 (some ⟨true, 0⟩), .items [5], .int 1] := by
  constructor
  · intro m hm
    simp only [List.mem_cons, List.not_mem_nil, or_false] at hm
    rcases hm with rfl | rfl | rfl | rfl | rfl | rfl | rfl | rfl | rfl <;> simp [Method.Safe]
  · decide +kernel

/-! ### C59 -/

/-- The C++ container holds `xs`: it reports their number and returns them by index. -/
def CStores (s : CSAP α) (xs : List α) : Prop :=
  s.getNumberOfItems = xs.length ∧ ∀ i : Nat, (h : i < xs.length) → s.getItem i = .ok xs[i]

/-- The states of the C++ container: the counterparts of the reachable states of the Python
container. -/
def CReachable (s : CSAP α) : Prop := SAP.Reachable s.py

theorem cGetItem_eq {s : CSAP α} (hr : CReachable s) (i : Nat) :
    s.getItem i = match (s.arr s.outSel).segs.flatten[i]? with
      | some x => .ok x
      | none => .error .ub := by
  have inv := SAP.reachable_inv hr
  have h := same_exec (s := s) (m := .get i) inv.out.pos (by simp [Method.Safe])
  have e : s.py.outA = (s.arr s.outSel).py := CSAP.py_arr s s.outSel
  have hg := SAP.getItem_eq (s := s.py) inv.out.uni inv.out.pos i
  rw [e] at hg
  simp only [pyExec, cppExec, hg, CSA.py] at h
  cases hx : (s.arr s.outSel).segs.flatten[i]? with
  | none =>
    rw [hx] at h
    unfold CSAP.getItem at h ⊢
    simp only [orIndexErr, bind, Except.bind] at h ⊢
    have hp : (0 : Int) ≤ Int.tdiv (i : Int) s.sl :=
      Int.tdiv_nonneg (Int.natCast_nonneg i) (Int.natCast_nonneg s.sl)
    have hq : (0 : Int) ≤ Int.tmod (i : Int) s.sl := Int.tmod_nonneg _ (Int.natCast_nonneg i)
    rw [cGet_py _ hp] at h ⊢
    cases h1 : pyGet (s.arr s.outSel).segs (Int.tdiv (i : Int) s.sl) with
    | error _ => rfl
    | ok vec =>
      rw [h1] at h
      simp only at h ⊢
      rw [cGet_py _ hq] at h ⊢
      cases h2 : pyGet vec (Int.tmod (i : Int) s.sl) with
      | error _ => rfl
      | ok _ => rw [h2] at h; simp [Same, pure, Except.pure] at h
  | some x =>
    rw [hx] at h
    simp only [orIndexErr, bind, Except.bind] at h ⊢
    cases h1 : s.getItem i with
    | error _ => rw [h1] at h; simp [Same, pure, Except.pure] at h
    | ok y =>
      rw [h1] at h
      simp only [Same, pure, Except.pure, Reply.item.injEq, true_and] at h
      rw [h]

theorem wholePieces_ok {s : CSAP α} (hfl : (s.arr s.outSel).fnf < (s.arr s.outSel).segs.length)
    (k q : Nat) (hq : q + k = (s.arr s.outSel).fnf)
    (hne : (s.arr s.outSel).fnf = q → (s.arr s.outSel).fao ≠ 0) (fuel : Nat) (hfuel : k < fuel) :
    ∃ s', CSAP.wholePieces fuel (s.setArr s.outSel { s.arr s.outSel with cur := q })
        (some ⟨s.outSel, q⟩) = .ok (s', ((s.arr s.outSel).segs.drop q).take
          (if (s.arr s.outSel).fao = 0 then k else k + 1)) := by
  induction k generalizing q fuel with
  | zero =>
    obtain ⟨fuel, rfl⟩ : ∃ f, fuel = f + 1 := ⟨fuel - 1, by omega⟩
    have hq' : (s.arr s.outSel).fnf = q := by omega
    have hlen : q < (s.arr s.outSel).segs.length := by omega
    have harr : (s.setArr s.outSel { s.arr s.outSel with cur := q }).arr s.outSel =
        { s.arr s.outSel with cur := q } := by
      cases h : s.outSel <;> simp [CSAP.setArr, CSAP.arr]
    have hsel : (s.setArr s.outSel { s.arr s.outSel with cur := q }).sel .Out = s.outSel := by
      cases h : s.outSel <;> simp [CSAP.setArr, CSAP.sel, h]
    have hpiece : (s.setArr s.outSel { s.arr s.outSel with cur := q }).viewAll ⟨s.outSel, q⟩ =
        .ok (s.arr s.outSel).segs[q] := by
      simp [CSAP.viewAll, harr, cGet, hlen]
    simp only [CSAP.wholePieces, hpiece, bind, Except.bind, CSAP.getNextSegment, hsel, harr]
    rw [if_pos (by omega)]
    simp only [CSAP.wholePieces]
    rw [if_neg (hne hq')]
    rw [List.drop_eq_getElem_cons hlen]
    exact ⟨_, rfl⟩
  | succ k ih =>
    obtain ⟨fuel, rfl⟩ : ∃ f, fuel = f + 1 := ⟨fuel - 1, by omega⟩
    have hlen : q < (s.arr s.outSel).segs.length := by omega
    have harr : (s.setArr s.outSel { s.arr s.outSel with cur := q }).arr s.outSel =
        { s.arr s.outSel with cur := q } := by
      cases h : s.outSel <;> simp [CSAP.setArr, CSAP.arr]
    have hsel : (s.setArr s.outSel { s.arr s.outSel with cur := q }).sel .Out = s.outSel := by
      cases h : s.outSel <;> simp [CSAP.setArr, CSAP.sel, h]
    have hset : ∀ a : CSA α, (s.setArr s.outSel { s.arr s.outSel with cur := q }).setArr s.outSel a =
        s.setArr s.outSel a := by
      intro a; cases h : s.outSel <;> simp [CSAP.setArr]
    have hpiece : (s.setArr s.outSel { s.arr s.outSel with cur := q }).viewAll ⟨s.outSel, q⟩ =
        .ok (s.arr s.outSel).segs[q] := by
      simp [CSAP.viewAll, harr, cGet, hlen]
    simp only [CSAP.wholePieces, hpiece, bind, Except.bind, CSAP.getNextSegment, hsel, harr, hset]
    rw [if_neg (by omega)]
    rw [List.drop_eq_getElem_cons hlen]
    by_cases hlast : (s.arr s.outSel).fnf = q + 1
    · rw [if_pos hlast]
      have hk : k = 0 := by omega
      subst hk
      by_cases h0 : (s.arr s.outSel).fao = 0
      · rw [if_pos h0, if_pos h0]
        simp only [CSAP.wholePieces]
        exact ⟨_, rfl⟩
      · rw [if_neg h0, if_neg h0]
        obtain ⟨s', e⟩ := ih (q + 1) (by omega) (fun _ => h0) fuel (by omega)
        rw [if_neg h0] at e
        have e' : ((q + 1 : Nat) : Int) = (q : Int) + 1 := by omega
        simp only [e'] at e ⊢
        rw [e]
        exact ⟨s', rfl⟩
    · rw [if_neg hlast]
      obtain ⟨s', e⟩ := ih (q + 1) (by omega) (fun h => absurd h (by omega)) fuel (by omega)
      have e' : ((q + 1 : Nat) : Int) = (q : Int) + 1 := by omega
      simp only [e'] at e ⊢
      rw [e]
      refine ⟨s', ?_⟩
      by_cases h0 : (s.arr s.outSel).fao = 0
      · simp only [h0, pure, Except.pure, if_true, List.take_succ_cons]
      · simp only [h0, pure, Except.pure, if_false, List.take_succ_cons]

/-- The loop visits the stored items and then the rest of the last segment it visits. -/
theorem wholeLoop_ok {s : CSAP α} (hr : CReachable s) {xs : List α} (hx : CStores s xs) :
    ∃ s' ps stale, s.wholeLoop = .ok (s', ps) ∧ ps.flatten = xs ++ stale ∧
      stale.length < s.sl ∧ (∃ q, xs.length + stale.length = q * s.sl) ∧
      ∀ j, (h : j < stale.length) → s.getItem ((xs.length + j : Nat) : Int) = .ok stale[j] := by
  have inv := SAP.reachable_inv hr
  have hW := inv.out
  have e : s.py.outA = (s.arr s.outSel).py := CSAP.py_arr s s.outSel
  have hsl : s.py.sl = s.sl := rfl
  rw [e, hsl] at hW
  have hpos := hW.pos
  have hfl : (s.arr s.outSel).fnf < (s.arr s.outSel).segs.length := by
    have h1 := hW.fnfLt; have h2 := hW.nseg; simp only [CSA.py] at h1 h2; omega
  have hns : (s.arr s.outSel).nseg = (s.arr s.outSel).segs.length := hW.nseg
  have hol : (s.arr s.outSel).fao ≤ s.sl := by
    have h1 := hW.faoLe; simp only [CSA.py] at h1; omega
  have huni : Uniform s.sl (s.arr s.outSel).segs := hW.uni
  have hn := hx.1
  unfold CSAP.getNumberOfItems at hn
  have hlen : xs.length = (s.arr s.outSel).fnf * s.sl + (s.arr s.outSel).fao := by
    have : (((s.arr s.outSel).fnf * s.sl + (s.arr s.outSel).fao : Nat) : Int) = xs.length := by
      push_cast; exact hn
    omega
  -- the loop
  obtain ⟨V, s', hV, hVlen, hloop⟩ : ∃ V s', (V * s.sl < xs.length + s.sl ∧ xs.length ≤ V * s.sl) ∧
      V ≤ (s.arr s.outSel).segs.length ∧
      s.wholeLoop = .ok (s', (s.arr s.outSel).segs.take V) := by
    unfold CSAP.wholeLoop CSAP.initOutLoop
    dsimp only
    by_cases hf0 : (s.arr s.outSel).fnf = 0
    · rw [hf0] at hlen
      by_cases ho0 : (s.arr s.outSel).fao = 0
      · refine ⟨0, s.setArr s.outSel { s.arr s.outSel with cur := 0 }, ⟨by omega, by omega⟩,
          by omega, ?_⟩
        simp only [if_pos hf0, if_pos ho0, CSAP.wholePieces, List.take_zero]
      · obtain ⟨s', h⟩ := wholePieces_ok hfl 0 0 (by omega)
          (fun _ => by omega) ((s.arr s.outSel).nseg + 1) (by omega)
        rw [if_neg ho0] at h
        refine ⟨1, s', ⟨by omega, by omega⟩, by omega, ?_⟩
        simp only [if_pos hf0, if_neg ho0]
        simpa using h
    · obtain ⟨s', h⟩ := wholePieces_ok hfl _ 0 (Nat.zero_add _)
        (fun h => by omega) ((s.arr s.outSel).nseg + 1) (by omega)
      simp only [if_neg hf0]
      by_cases ho0 : (s.arr s.outSel).fao = 0
      · rw [if_pos ho0] at h
        refine ⟨_, s', ⟨?_, ?_⟩, ?_, by simpa using h⟩ <;> omega
      · rw [if_neg ho0] at h
        have : ((s.arr s.outSel).fnf + 1) * s.sl = (s.arr s.outSel).fnf * s.sl + s.sl := by
          rw [Nat.succ_mul]
        refine ⟨(s.arr s.outSel).fnf + 1, s', ⟨?_, ?_⟩, ?_, by simpa using h⟩ <;> omega
  generalize hg : (s.arr s.outSel).segs = segs at *
  have hflat := huni.flatten_length
  have hflatV : (segs.take V).flatten = segs.flatten.take (V * s.sl) := by
    have hu1 : Uniform s.sl (segs.take V) := fun t ht => huni t (List.mem_of_mem_take ht)
    have h1 := hu1.flatten_length
    rw [List.length_take, Nat.min_eq_left hVlen] at h1
    conv_rhs => rw [← List.take_append_drop V segs, List.flatten_append]
    rw [← h1, List.take_left]
  have hVl : V * s.sl ≤ segs.flatten.length := by
    rw [hflat]; exact Nat.mul_le_mul_right _ hVlen
  have hxs : xs = segs.flatten.take xs.length := by
    apply List.ext_getElem?
    intro i
    by_cases hi : i < xs.length
    · have h1 := hx.2 i hi
      rw [cGetItem_eq hr, hg] at h1
      rw [List.getElem?_take, if_pos hi, List.getElem?_eq_getElem hi]
      cases h2 : segs.flatten[i]? with
      | none => rw [h2] at h1; simp at h1
      | some y => rw [h2] at h1; simp at h1; rw [h1]
    · rw [List.getElem?_eq_none (by omega), List.getElem?_take, if_neg hi]
  refine ⟨s', segs.take V, (segs.flatten.take (V * s.sl)).drop xs.length, hloop, ?_, ?_, ?_, ?_⟩
  · rw [hflatV]
    conv_rhs => rw [hxs]
    have hl : (segs.flatten.take xs.length).length = xs.length := by
      rw [List.length_take]; omega
    rw [hl]
    conv_lhs => rw [← List.take_append_drop xs.length (segs.flatten.take (V * s.sl))]
    rw [List.take_take, Nat.min_eq_left hV.2]
  · rw [List.length_drop, List.length_take]; omega
  · refine ⟨V, ?_⟩
    rw [List.length_drop, List.length_take]; omega
  · intro j hj
    rw [cGetItem_eq hr, hg]
    rw [List.length_drop, List.length_take] at hj
    rw [List.getElem?_eq_getElem (by omega)]
    simp

variable {K : Type} [Field K]

/-- With C++ storage the number of physical particles is the sum of the weights of the stored
particles plus the weights found in the rest of the last segment, in the slots that follow the
stored particles. -/
theorem C59_number_partial (w : α → K) {s : CSAP α} (hr : CReachable s) {xs : List α}
    (hx : CStores s xs) :
    ∃ s' stale, s.getSpeciesNumber w = .ok (s', Spec.number w xs + Spec.number w stale) ∧
      stale.length < s.sl ∧ (∃ q, xs.length + stale.length = q * s.sl) ∧
      ∀ j, (h : j < stale.length) → s.getItem ((xs.length + j : Nat) : Int) = .ok stale[j] := by
  obtain ⟨s', ps, stale, h1, h2, h3, h4, h5⟩ := wholeLoop_ok hr hx
  refine ⟨s', stale, ?_, h3, h4, h5⟩
  simp only [CSAP.getSpeciesNumber, h1, bind, Except.bind, pure, Except.pure]
  rw [Species.foldl_sum_pieces, h2, List.map_append, List.sum_append, zero_add]
  rfl

/-- The same for the kinetic energy. -/
theorem C59_KE_partial (w : α → K) (vel : List (α → K)) (m : K) {s : CSAP α} (hr : CReachable s)
    {xs : List α} (hx : CStores s xs) :
    ∃ s' stale, s.getSpeciesKE w vel m =
        .ok (s', Spec.kinetic w vel m xs + Spec.kinetic w vel m stale) ∧
      stale.length < s.sl ∧ (∃ q, xs.length + stale.length = q * s.sl) ∧
      ∀ j, (h : j < stale.length) → s.getItem ((xs.length + j : Nat) : Int) = .ok stale[j] := by
  obtain ⟨s', ps, stale, h1, h2, h3, h4, h5⟩ := wholeLoop_ok hr hx
  refine ⟨s', stale, ?_, h3, h4, h5⟩
  simp only [CSAP.getSpeciesKE, h1, bind, Except.bind, pure, Except.pure, Species.foldl_vel]
  rw [Species.foldl_sum_pieces, h2, List.map_append, List.sum_append, zero_add, add_mul,
    Species.kinetic_eq, Species.kinetic_eq]

/-- The sums are right if the last segment is full. -/
theorem C59_full_segments_partial (w : α → K) {s : CSAP α} (hr : CReachable s) {xs : List α}
    (hx : CStores s xs) (hfull : s.sl ∣ xs.length) :
    ∃ s', s.getSpeciesNumber w = .ok (s', Spec.number w xs) := by
  obtain ⟨s', stale, h1, h2, ⟨q, h3⟩, _⟩ := C59_number_partial w hr hx
  have : s.sl ∣ stale.length := by
    have h4 : s.sl ∣ xs.length + stale.length := ⟨q, by rw [h3, Nat.mul_comm]⟩
    exact (Nat.dvd_add_right hfull).1 h4
  have h0 : stale.length = 0 := Nat.eq_zero_of_dvd_of_lt this h2
  rw [List.length_eq_zero_iff] at h0
  subst h0
  exact ⟨s', by rw [h1]; simp [Spec.number]⟩

/-- Two particles of weight 1 and 2 are stored; two passes, in the second of which the particle of
weight 2 is lost.  The container reports one particle, its weight is 1, the number is still 3. -/
def lossHist : List (Method ℚ) :=
  [.push 1, .push 2, .initInout, .write ⟨true, 0⟩ 2 0 1, .write ⟨true, 0⟩ 2 1 2, .setNumber .Out 2,
   .initInout, .write ⟨false, 0⟩ 2 0 1, .setNumber .Out 1]

theorem C59_false : ∃ s : CSAP ℚ,
    (runHist (cppExec CSAP.pushList) (CSAP.new 2 0) lossHist).2 = .ok s ∧ CStores s [1] ∧
    (s.getSpeciesNumber id).map (·.2) = .ok 3 ∧ Spec.number id [(1 : ℚ)] = 1 := by
  refine ⟨((runHist (cppExec CSAP.pushList) (CSAP.new 2 0) lossHist).2).toOption.get
    (by decide +kernel), by decide +kernel, ⟨by decide +kernel, ?_⟩, by decide +kernel,
    by decide +kernel⟩
  intro i hi
  have : i = 0 := by simp at hi; exact hi
  subst this
  revert hi
  decide +kernel

/-- The hypotheses hold for it. -/
example : ∃ s : CSAP ℚ, CReachable s ∧ CStores s [1, 2, 4] := by
  refine ⟨((runHist (cppExec CSAP.pushArray) (CSAP.new 2 0) [.push 1, .push 2, .push 4]).2
    ).toOption.get (by decide +kernel), ?_, by decide +kernel, ?_⟩
  · have e : SAP.pushAll (SAP.new 2 (0 : ℚ)) [1, 2, 4] = .ok
      ((((runHist (cppExec CSAP.pushArray) (CSAP.new 2 0) [.push 1, .push 2, .push 4]).2
      ).toOption.get (by decide +kernel)).py, [(0, 0), (1, 1), (0, 2)]) := by decide +kernel
    exact Fld.pushAll_reachable (.new 2 0 (by decide)) e
  · intro i hi
    have : i = 0 ∨ i = 1 ∨ i = 2 := by simp at hi; omega
    rcases this with rfl | rfl | rfl <;> (revert hi; decide +kernel)

end Dt
