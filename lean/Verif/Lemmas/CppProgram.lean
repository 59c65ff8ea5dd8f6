import Verif.Spec.CppProgram
import Verif.Lemmas.CppPass
import Verif.Lemmas.SAPLoops
import Mathlib.Tactic.Ring

/-! # Lemmas about programs on the compiled container -/

namespace Dt
namespace CppProgram
open SAP CppMover
open Spec.Prog (LSp)
variable {σ α : Type}

theorem outA_py (s : CSAP α) : s.py.outA = (s.arr s.outSel).py := CSAP.py_arr s s.outSel

/-- Choosing a slot, if the position of the container is not behind. -/
theorem pushSlot_ok {a : CSA α} {sl : Nat} {junk : α} (h : a.py.WF sl) (hc : a.fnf ≤ a.cur) :
    (CSAP.pushSlot sl junk a).py.WF sl ∧ (CSAP.pushSlot sl junk a).fao < sl ∧
      (CSAP.pushSlot sl junk a).py.items sl = a.py.items sl ∧
      ∃ d, (CSAP.pushSlot sl junk a).cur = a.cur + d ∧ (CSAP.pushSlot sl junk a).fnf = a.fnf + d := by
  obtain ⟨segs, fnf, fao, cur, nseg⟩ := a
  obtain ⟨hpos, hn, hu, -, hf, -, ho⟩ := h
  simp only [CSA.py] at hn hu hf ho hc
  have hf' : fnf < nseg := by omega
  have ho' : fao ≤ sl := by omega
  unfold CSAP.pushSlot
  simp only
  by_cases hfull : fao = sl
  · rw [if_pos hfull]
    subst hfull
    split
    · rename_i h1
      refine ⟨⟨hpos, hn, hu, by simp [CSA.py]; omega, by simp [CSA.py]; omega, by simp [CSA.py],
        by simp [CSA.py]⟩, hpos, ?_, 1, rfl, rfl⟩
      unfold SA.items CSA.py
      simp only
      congr 2
      push_cast
      ring
    · have hl : segs.flatten.length = nseg * fao := by rw [hu.flatten_length, hn]
      have hle : (fnf + 1) * fao ≤ nseg * fao := Nat.mul_le_mul_right _ hf'
      refine ⟨⟨hpos, by simp [CSA.py, CSAP.addSegment, hn], ?_, by simp [CSA.py, CSAP.addSegment]; omega,
        by simp [CSA.py, CSAP.addSegment]; omega, by simp [CSA.py, CSAP.addSegment],
        by simp [CSA.py, CSAP.addSegment]⟩, by simpa [CSAP.addSegment] using hpos, ?_, 1, rfl, rfl⟩
      · exact hu.append _ (by simp)
      · unfold SA.items CSA.py CSAP.addSegment
        simp only [List.flatten_append]
        rw [List.take_append_of_le_length]
        · congr 2
          push_cast
          ring
        · rw [hl]
          have : ((((fnf + 1 : Nat) : Int) * (fao : Int) + ((0 : Nat) : Int))).toNat = (fnf + 1) * fao := by
            rw [show (((fnf + 1 : Nat) : Int) * (fao : Int) + ((0 : Nat) : Int)) =
              (((fnf + 1) * fao : Nat) : Int) by push_cast; ring]
            exact Int.toNat_natCast _
          rw [this]
          exact hle
  · rw [if_neg hfull]
    exact ⟨⟨hpos, hn, hu, by simp [CSA.py], by simpa [CSA.py] using hf, by simp [CSA.py],
      by simpa [CSA.py] using ho⟩, by simp only; omega, rfl, 0, rfl, rfl⟩

/-- Storing an item in the chosen slot. -/
theorem pushStore_ok {s : CSAP α} (h : s.py.Inv) {a : CSA α} (wf : a.py.WF s.sl)
    (hlt : a.fao < s.sl) (hit : a.py.items s.sl = s.py.contents) (x : α) :
    ∃ s', CSAP.pushStore s a x = .ok (s', (((s.py.contents.length % s.sl : Nat) : Int),
        (s.py.contents.length : Int))) ∧
      s'.py.Inv ∧ s'.py.contents = s.py.contents ++ [x] ∧ s'.sl = s.sl ∧
      (s'.arr s'.outSel).cur = a.cur ∧ (s'.arr s'.outSel).fnf = a.fnf ∧
      0 < (s'.arr s'.outSel).fao := by
  obtain ⟨f, o, hf, ho, hfl, hol, hfl2, hle⟩ := wf.total
  have hf' : a.fnf = f := by simpa [CSA.py] using hf
  have ho' : a.fao = o := by simpa [CSA.py] using ho
  have hol' : o < s.sl := by omega
  obtain ⟨segs', e2, uni', len', flat'⟩ := store_eq wf.uni f o hfl hol' x
  have hlenN : s.py.contents.length = f * s.sl + o := by
    have := wf.items_length
    rw [hit, hf, ho] at this
    exact_mod_cast this
  have hss := same_pushStore s a x
  rw [hf, ho, e2] at hss
  simp only [bind, Except.bind, pure, Except.pure] at hss
  cases e3 : CSAP.pushStore s a x with
  | error e => rw [e3] at hss; simp [Same] at hss
  | ok r =>
    obtain ⟨s', i, j⟩ := r
    rw [e3] at hss
    simp only [Same, Reply.pair.injEq] at hss
    obtain ⟨h1, h2, h3⟩ := hss
    have hshape : s' = s.setArr s.outSel { a with segs := (s'.arr s'.outSel).segs, fao := a.fao + 1 } ∧
        s'.outSel = s.outSel := by
      unfold CSAP.pushStore at e3
      simp only [bind, Except.bind, pure, Except.pure] at e3
      split at e3
      · cases e3
      split at e3
      · cases e3
      split at e3
      · cases e3
      simp only [Except.ok.injEq, Prod.mk.injEq] at e3
      obtain ⟨rfl, -⟩ := e3
      unfold CSAP.setArr CSAP.arr
      cases ho : s.outSel <;> simp [ho]
    obtain ⟨hshape, hos⟩ := hshape
    have harr : s'.arr s'.outSel = { a with segs := (s'.arr s'.outSel).segs, fao := a.fao + 1 } := by
      rw [hos]
      rw [hos] at hshape
      generalize (s'.arr s.outSel).segs = g at hshape
      rw [hshape]
      unfold CSAP.setArr CSAP.arr
      cases s.outSel <;> rfl
    have hsel := h.sel
    have houtsel : s.outSel = s.py.outSel := rfl
    have hsl : s'.sl = s.sl := by
      have := congrArg SAP.sl h1.symm
      rw [setArr_sl] at this
      exact this
    refine ⟨s', ?_, ?_, ?_, hsl, by rw [harr], by rw [harr], by rw [harr]; simp⟩
    · congr 3
      · rw [hlenN, ← h2, Nat.mul_comm, Nat.mul_add_mod, Nat.mod_eq_of_lt hol']
        simp [ho]
      · rw [hlenN, ← h3]
        simp [hf, ho]
    · rw [← h1]
      rw [houtsel]
      refine ⟨by simpa using hsel, ?_, ?_⟩
      · simp only [setArr_sl]
        rw [outA_setArr_out]
        exact ⟨wf.pos, by simp [len', wf.nseg], uni', wf.fnf0, wf.fnfLt,
          by have := wf.fao0; simp; omega, by
            have hsl2 : s.py.sl = s.sl := rfl
            simp only [ho, hsl2]
            omega⟩
      · simp only [setArr_sl, inA, setArr_inSel, hsel, arr_setArr_not]
        have := h.inn
        simpa [inA, hsel] using this
    · rw [← h1, houtsel]
      unfold contents
      rw [outA_setArr_out, setArr_sl]
      have hit' : a.py.items s.py.sl = s.py.outA.items s.py.sl := hit
      rw [← hit']
      unfold SA.items
      simp only [hf, ho, flat']
      rw [toNat_cast_add, show ((o : Int) + 1) = ((o + 1 : Nat) : Int) by push_cast; rfl,
        toNat_cast_add]
      change List.take (f * s.sl + (o + 1)) _ = List.take (f * s.sl + o) _ ++ _
      have hb : f * s.sl + o < a.py.segs.flatten.length := by
        rw [hfl2]
        calc f * s.sl + o < f * s.sl + s.sl := by omega
          _ = (f + 1) * s.sl := by rw [Nat.succ_mul]
          _ ≤ _ := Nat.mul_le_mul_right _ hfl
      rw [← Nat.add_assoc, List.take_add_one, List.take_set_of_le (by omega)]
      rw [List.getElem?_set_self hb]
      rfl

/-- What ties a container to a list on paper. -/
structure Rel (sl : Nat) (sp : Sp α) (l : LSp α) : Prop where
  charged : sp.charged = l.charged
  sl : sp.sap.sl = sl
  inv : sp.sap.py.Inv
  items : sp.sap.py.contents = l.xs
  notBehind : (sp.sap.arr sp.sap.outSel).fnf ≤ (sp.sap.arr sp.sap.outSel).cur
  ahead : l.ahead = true ↔ (sp.sap.arr sp.sap.outSel).fnf ≠ (sp.sap.arr sp.sap.outSel).cur
  fao : l.xs ≠ [] → 0 < (sp.sap.arr sp.sap.outSel).fao

theorem Rel.full {sl : Nat} {sp : Sp α} {l : LSp α} (h : Rel sl sp l) :
    Spec.Prog.full sl l = true ↔ (sp.sap.arr sp.sap.outSel).fao = sl := by
  have hl := h.inv.out.items_length
  have hpos : 0 < sp.sap.sl := h.inv.out.pos
  have hfao := h.inv.out.faoLe
  have hit : sp.sap.py.outA.items sp.sap.py.sl = l.xs := h.items
  rw [hit] at hl
  rw [outA_py] at hl hfao
  simp only [CSA.py] at hl hfao
  change (l.xs.length : Int) = (sp.sap.arr sp.sap.outSel).fnf * (sp.sap.sl : Int) + _ at hl
  change _ ≤ (sp.sap.sl : Int) at hfao
  rw [h.sl] at hl hfao hpos
  have hl' : l.xs.length = (sp.sap.arr sp.sap.outSel).fnf * sl + (sp.sap.arr sp.sap.outSel).fao := by
    exact_mod_cast hl
  have hfao' : (sp.sap.arr sp.sap.outSel).fao ≤ sl := by omega
  have h0 := h.fao
  unfold Spec.Prog.full
  rw [decide_eq_true_eq, hl', Nat.mul_comm, Nat.mul_add_mod]
  generalize (sp.sap.arr sp.sap.outSel).fao = o at *
  constructor
  · rintro ⟨h1, h2⟩
    have := h0 h1
    by_cases h3 : o < sl
    · rw [Nat.mod_eq_of_lt h3] at h2
      omega
    · omega
  · rintro rfl
    refine ⟨fun h1 => ?_, by simp⟩
    rw [h1] at hl'
    simp at hl'
    omega

theorem Rel.push {sl : Nat} {sp : Sp α} {l : LSp α} (h : Rel sl sp l) (p : α) :
    ∃ s', sp.sap.pushList p = .ok (s', (((l.xs.length % sl : Nat) : Int), (l.xs.length : Int))) ∧
      Rel sl { sp with sap := s' } { l with xs := l.xs ++ [p] } := by
  have hw := h.inv.out
  rw [outA_py] at hw
  obtain ⟨w, hlt, hit, d, hcur, hfnf⟩ := pushSlot_ok (junk := sp.sap.junk) hw h.notBehind
  have hit' : (CSAP.pushSlot sp.sap.sl sp.sap.junk (sp.sap.arr sp.sap.outSel)).py.items sp.sap.sl =
      sp.sap.py.contents := by
    unfold contents
    rw [outA_py]
    exact hit
  obtain ⟨s', e, hi, hc, hsl, h1, h2, h3⟩ := pushStore_ok h.inv w hlt hit' p
  rw [h.items, h.sl] at e
  have hnb := h.notBehind
  have ha := h.ahead
  refine ⟨s', e, h.charged, by rw [hsl]; exact h.sl, hi, by rw [hc, h.items], ?_, ?_, fun _ => h3⟩
  · simp only
    rw [h1, h2, hcur, hfnf]
    omega
  · simp only
    rw [h1, h2, hcur, hfnf, ha]
    omega

/-- The array overload stops exactly for a full container that is ahead. -/
theorem Rel.pushArray {sl : Nat} {sp : Sp α} {l : LSp α} (h : Rel sl sp l) (p : α) :
    sp.sap.pushArray p = if Spec.Prog.full sl l && l.ahead then .error .abort else sp.sap.pushList p := by
  have hf := h.full
  have ha := h.ahead
  unfold CSAP.pushArray CSAP.pushList
  simp only
  have hassert : CSAP.pushAssert sp.sap.sl (sp.sap.arr sp.sap.outSel)
      (CSAP.pushSlot sp.sap.sl sp.sap.junk (sp.sap.arr sp.sap.outSel)) =
      !(Spec.Prog.full sl l && l.ahead) := by
    rw [Bool.eq_iff_iff, Bool.not_eq_true', Bool.and_eq_false_iff, ← Bool.not_eq_true,
      ← Bool.not_eq_true, hf, ha]
    unfold CSAP.pushAssert CSAP.pushSlot
    rw [h.sl]
    generalize sp.sap.arr sp.sap.outSel = a
    simp only [Bool.or_eq_true, decide_eq_true_eq]
    by_cases h1 : a.fao = sl
    · rw [if_pos h1]
      simp only [h1, not_true_eq_false, false_or, ne_eq, Decidable.not_not]
      split
      · simp
      · simp [CSAP.addSegment]
    · simp [h1]
  rw [hassert]
  cases Spec.Prog.full sl l && l.ahead <;> simp

theorem readPieces_eq {sl : Nat} : ∀ (fuel : Nat) (s : CSAP α) (_ : s.sl = sl) (_ : 0 < sl) (n : Int)
    (_ : 0 ≤ n) (v : Option View) (_ : ∀ w, v = some w → 0 ≤ w.seg) (t : SAP α)
    (ps : List (List α)), SAP.readPieces fuel s.py n v = .ok (t, ps) →
    ∃ s', readPieces fuel s n v = .ok (s', ps.flatten) ∧ s'.py = t := by
  intro fuel
  induction fuel with
  | zero =>
    intro s hsl hpos n hn v hv t ps e
    cases v with
    | none =>
      simp only [SAP.readPieces, Except.ok.injEq, Prod.mk.injEq] at e
      exact ⟨s, by simp [readPieces, ← e.2], e.1⟩
    | some w => simp [SAP.readPieces] at e
  | succ fuel ih =>
    intro s hsl hpos n hn v hv t ps e
    cases v with
    | none =>
      simp only [SAP.readPieces, Except.ok.injEq, Prod.mk.injEq] at e
      exact ⟨s, by simp [readPieces, ← e.2], e.1⟩
    | some w =>
      simp only [SAP.readPieces, bind, Except.bind] at e
      have hg := getNext_py (s := s) (by omega) .Out
      rw [hg] at e
      have hw := hv w rfl
      have hview : (∃ b, s.viewAll w = .ok b ∧ s.py.viewItems w n = .ok (b.take n.toNat)) ∨
          ∃ e', s.py.viewItems w n = .error e' := by
        unfold viewItems CSAP.viewAll
        rw [CSAP.py_arr, show (s.arr w.arr).py.segs = (s.arr w.arr).segs from rfl,
          cGet_py (s.arr w.arr).segs hw]
        cases hh : pyGet (s.arr w.arr).segs w.seg with
        | error e' => exact .inr ⟨e', rfl⟩
        | ok b =>
          refine .inl ⟨b, rfl, ?_⟩
          simp only [bind, Except.bind, pure, Except.pure, pySlice0]
          rw [if_pos hn]
      rcases hview with ⟨b, hb, hv'⟩ | ⟨e', he⟩
      · rw [hv'] at e
        simp only at e
        cases hr : SAP.readPieces fuel (s.getNextSegment .Out).1.py (s.getNextSegment .Out).2.1
            (s.getNextSegment .Out).2.2 with
        | error e2 =>
          rw [show (s.getNextSegment .Out).2 = ((s.getNextSegment .Out).2.1,
            (s.getNextSegment .Out).2.2) from rfl] at e
          simp only [hr] at e
          cases e
        | ok r =>
          obtain ⟨t', ps'⟩ := r
          rw [show (s.getNextSegment .Out).2 = ((s.getNextSegment .Out).2.1,
            (s.getNextSegment .Out).2.2) from rfl] at e
          simp only [hr, pure, Except.pure, Except.ok.injEq, Prod.mk.injEq] at e
          have hnn : 0 ≤ (s.getNextSegment .Out).2.1 ∧
              ∀ w, (s.getNextSegment .Out).2.2 = some w → 0 ≤ w.seg := by
            unfold CSAP.getNextSegment
            dsimp only
            split
            · exact ⟨by simp, by simp⟩
            · split
              · split
                · exact ⟨by simp, by simp⟩
                · refine ⟨by simp, ?_⟩
                  intro w hw
                  simp only [Option.some.injEq] at hw
                  rw [← hw]
                  exact Int.natCast_nonneg _
              · refine ⟨by simp, ?_⟩
                intro w hw
                simp only [Option.some.injEq] at hw
                rw [← hw]
                exact Int.natCast_nonneg _
          have hsl2 : (s.getNextSegment .Out).1.sl = sl := by
            unfold CSAP.getNextSegment
            dsimp only
            split
            · rw [CSAP.setArr_sl, hsl]
            · split
              · split <;> rw [CSAP.setArr_sl, hsl]
              · rw [CSAP.setArr_sl, hsl]
          obtain ⟨s', e4, e5⟩ := ih _ hsl2 hpos _ hnn.1 _ hnn.2 _ _ hr
          refine ⟨s', ?_, by rw [e5]; exact e.1⟩
          simp only [readPieces, bind, Except.bind, hb]
          rw [show s.getNextSegment .Out = ((s.getNextSegment .Out).1, (s.getNextSegment .Out).2.1,
            (s.getNextSegment .Out).2.2) from rfl]
          simp only [e4, pure, Except.pure, Except.ok.injEq, Prod.mk.injEq, true_and]
          rw [← e.2]
          rfl
      · rw [he] at e
        cases e

theorem Rel.look {sl : Nat} {sp : Sp α} {l : LSp α} (h : Rel sl sp l) :
    ∃ sp', CppProgram.look sp = .ok (sp', .items l.xs) ∧ Rel sl sp' { l with ahead := !l.xs.isEmpty } := by
  have hpos : 0 < sp.sap.sl := h.inv.out.pos
  have hr := readLoop_ok h.inv.out
  have hi := same_exec hpos (m := (.initOut : Method α)) trivial
  simp only [pyExec, cppExec, pure, Except.pure, Same, Reply.seg.injEq] at hi
  obtain ⟨h1, h2, h3⟩ := hi
  unfold readLoop at hr
  have hin : sp.sap.py.initOutLoop = (sp.sap.initOutLoop.1.py, sp.sap.initOutLoop.2) := by
    rw [← h1]
    exact Prod.ext rfl (Prod.ext h2 h3)
  have hns : sp.sap.py.outA.nseg = (sp.sap.arr sp.sap.outSel).nseg := by rw [outA_py]; rfl
  rw [hin, hns] at hr
  have hnn : 0 ≤ sp.sap.initOutLoop.2.1 ∧
      ∀ w, sp.sap.initOutLoop.2.2 = some w → 0 ≤ w.seg := by
    unfold CSAP.initOutLoop
    dsimp only
    split
    · split
      · exact ⟨by simp, by simp⟩
      · refine ⟨by simp, ?_⟩
        intro w hw
        simp only [Option.some.injEq] at hw
        rw [← hw]
    · refine ⟨by simp, ?_⟩
      intro w hw
      simp only [Option.some.injEq] at hw
      rw [← hw]
  have hsl1 : sp.sap.initOutLoop.1.sl = sl := by
    unfold CSAP.initOutLoop
    dsimp only
    split
    · split <;> (rw [CSAP.setArr_sl]; exact h.sl)
    · rw [CSAP.setArr_sl]; exact h.sl
  obtain ⟨s', e1, e2⟩ := readPieces_eq _ _ hsl1 (h.sl ▸ hpos) _ hnn.1 _ hnn.2 _ _ hr
  rw [h.items] at e1 e2
  have hch : (Spec.chunk sp.sap.py.sl l.xs).flatten = l.xs := Spec.chunk_flatten hpos _
  rw [hch] at e1
  refine ⟨{ sp with sap := s' }, ?_, ?_⟩
  · unfold CppProgram.look
    simp only [bind, Except.bind]
    rw [show sp.sap.initOutLoop = (sp.sap.initOutLoop.1, sp.sap.initOutLoop.2.1,
      sp.sap.initOutLoop.2.2) from rfl]
    simp only [e1, pure, Except.pure]
  · have hout : (s'.arr s'.outSel).py = { sp.sap.py.outA with
        cur := if l.xs = [] then 0 else endCur sp.sap.py.outA } := by
      rw [← outA_py, e2]
      unfold withCur
      rw [outA_setArr_out]
    have hfnf : (s'.arr s'.outSel).fnf = (sp.sap.arr sp.sap.outSel).fnf := by
      have := congrArg SA.fnf hout
      simp only [CSA.py] at this
      rw [outA_py] at this
      simp only [CSA.py] at this
      exact_mod_cast this
    have hfao : (s'.arr s'.outSel).fao = (sp.sap.arr sp.sap.outSel).fao := by
      have := congrArg SA.fao hout
      simp only [CSA.py] at this
      rw [outA_py] at this
      simp only [CSA.py] at this
      exact_mod_cast this
    have hcur := congrArg SA.cur hout
    simp only [CSA.py] at hcur
    rw [outA_py] at hcur
    have hcur' : (s'.arr s'.outSel).cur =
        if l.xs = [] then 0 else (sp.sap.arr sp.sap.outSel).fnf + 1 := by
      by_cases h0 : l.xs = []
      · rw [if_pos h0] at hcur ⊢
        exact_mod_cast hcur
      · rw [if_neg h0] at hcur ⊢
        have := h.fao h0
        unfold endCur at hcur
        rw [if_neg (show ¬ (sp.sap.arr sp.sap.outSel).py.fao = 0 by simp only [CSA.py]; omega)] at hcur
        simp only [CSA.py] at hcur
        exact_mod_cast hcur
    have hz : l.xs = [] → (sp.sap.arr sp.sap.outSel).fnf = 0 := by
      intro h0
      have := (contents_nil_iff h.inv.out).1 (by rw [h.items]; exact h0)
      rw [outA_py] at this
      simp only [CSA.py] at this
      omega
    have hsl3 : s'.sl = sl := by
      have : s'.py.sl = sp.sap.py.sl := by rw [e2]; simp
      exact this.trans h.sl
    refine ⟨h.charged, hsl3, by simp only; rw [e2]; exact withCur_inv h.inv _, ?_, ?_, ?_, ?_⟩
    · simp only
      rw [e2, withCur_contents]
      exact h.items
    · simp only
      rw [hfnf, hcur']
      split
      · rename_i h0
        rw [hz h0]
      · omega
    · simp only
      rw [hfnf, hcur']
      by_cases h0 : l.xs = []
      · simp [h0, hz h0]
      · simp [h0]
    · simp only
      rw [hfao]
      exact h.fao

end CppProgram
end Dt
