import Verif.Model.SAPReach
import Verif.Lemmas.SAPLoops

/-! # Every reachable container state is well formed -/

namespace Dt

theorem pySet_length {β : Type _} {xs ys : List β} {i : Int} {v : β}
    (h : pySet xs i v = .ok ys) : ys.length = xs.length ∧ ∀ y ∈ ys, y ∈ xs ∨ y = v := by
  unfold pySet at h
  split at h
  · split at h
    · cases h; exact ⟨by simp, fun y hy => List.mem_or_eq_of_mem_set hy⟩
    · cases h
  · split at h
    · cases h; exact ⟨by simp, fun y hy => List.mem_or_eq_of_mem_set hy⟩
    · cases h

theorem orIndexErr_ok {β : Type _} {o : Option β} {b : β} (h : orIndexErr o = .ok b) : o = some b := by
  cases o with
  | none => simp [orIndexErr] at h
  | some c => simp [orIndexErr] at h; rw [h]

theorem pyGet_mem {β : Type _} {xs : List β} {i : Int} {b : β}
    (h : pyGet xs i = .ok b) : b ∈ xs := by
  unfold pyGet at h
  split at h
  · exact List.mem_of_getElem? (orIndexErr_ok h)
  · split at h
    · exact List.mem_of_getElem? (orIndexErr_ok h)
    · cases h

namespace SAP
variable {α : Type _}

theorem store_shape {a a' : SA α} {sl : Nat} (hu : Uniform sl a.segs) {seg off : Int} {v : α}
    (e : store a seg off v = .ok a') :
    ∃ segs', a' = { a with segs := segs' } ∧ Uniform sl segs' ∧ segs'.length = a.segs.length := by
  unfold store at e
  cases h1 : pyGet a.segs seg with
  | error _ => rw [h1] at e; cases e
  | ok vec =>
    rw [h1] at e
    simp only [bind, Except.bind] at e
    cases h2 : pySet vec off v with
    | error _ => rw [h2] at e; cases e
    | ok vec' =>
      rw [h2] at e
      simp only [] at e
      cases h3 : pySet a.segs seg vec' with
      | error _ => rw [h3] at e; cases e
      | ok segs' =>
        rw [h3] at e
        simp only [pure, Except.pure, Except.ok.injEq] at e
        refine ⟨segs', e.symm, ?_, (pySet_length h3).1⟩
        intro t ht
        rcases (pySet_length h3).2 t ht with ht | ht
        · exact hu t ht
        · subst ht; rw [(pySet_length h2).1]; exact hu _ (pyGet_mem h1)

/-- Well-formedness of the pair, by array number. -/
theorem Inv.arr {s : SAP α} (h : s.Inv) (k : Bool) : (s.arr k).WF s.sl := by
  have h1 := h.out
  have h2 := h.inn
  have h3 := h.sel
  unfold outA at h1
  unfold inA at h2
  rw [h3] at h2
  cases hk : s.outSel <;> rw [hk] at h1 h2 <;> cases k <;> assumption

theorem Inv.mk' {s : SAP α} (hs : s.inSel = !s.outSel) (h : ∀ k, (s.arr k).WF s.sl) : s.Inv :=
  ⟨hs, h _, h _⟩

theorem setArr_inv {s : SAP α} (h : s.Inv) (k : Bool) {a : SA α} (ha : a.WF s.sl) :
    (s.setArr k a).Inv := by
  refine Inv.mk' (by simpa using h.sel) fun k' => ?_
  by_cases hk : k' = k
  · subst hk; simpa using ha
  · rw [arr_setArr_ne _ _ hk]; simpa using h.arr k'

theorem viewSet_inv {s s' : SAP α} (h : s.Inv) {v : View} {i : Int} {x : α}
    (e : s.viewSet v i x = .ok s') : s'.Inv := by
  unfold viewSet at e
  cases h1 : store (s.arr v.arr) v.seg i x with
  | error _ => rw [h1] at e; cases e
  | ok a =>
    rw [h1] at e
    simp only [bind, Except.bind, pure, Except.pure, Except.ok.injEq] at e
    have wf := h.arr v.arr
    obtain ⟨segs', rfl, u, l⟩ := store_shape wf.uni h1
    rw [← e]
    exact setArr_inv h _ ⟨wf.pos, by simp [l, wf.nseg], u, wf.fnf0, wf.fnfLt, wf.fao0, wf.faoLe⟩

theorem setItem_inv {s s' : SAP α} (h : s.Inv) {i : Int} {x : α}
    (e : s.setItem i x = .ok s') : s'.Inv :=
  viewSet_inv (v := ⟨s.outSel, (pyDivmod i s.sl).1⟩) (i := (pyDivmod i s.sl).2) (x := x) h e

theorem pushBack_cases {s : SAP α} (h : s.Inv) :
    (s.outA.fao < s.sl ∨ s.Synced) ∨ (s.outA.fao = s.sl ∧ ¬ s.Synced) := by
  have := h.out.faoLe
  by_cases h1 : s.outA.fao < s.sl
  · exact .inl (.inl h1)
  · by_cases h2 : s.Synced
    · exact .inl (.inr h2)
    · exact .inr ⟨by omega, h2⟩

theorem getNextOutSegment_ok {s : SAP α} (h : s.Inv) (hs : s.Synced) :
    ∃ s', s.getNextOutSegment = .ok (s', ⟨s.outSel, s.outA.fnf + 1⟩) ∧ s'.Inv ∧ s'.Synced ∧
      s'.outA.fnf = s.outA.fnf + 1 ∧ s'.outA.fao = 0 ∧ s'.sl = s.sl ∧ s'.junk = s.junk ∧
      s'.inA = s.inA ∧ s'.inSel = s.inSel ∧ s'.outSel = s.outSel ∧
      (∃ t, s'.outA.segs = s.outA.segs ++ t) ∧
      (s'.outA.nseg = if s.outA.fnf + 1 = s.outA.nseg then s.outA.nseg + 1 else s.outA.nseg) := by
  have wf := h.out
  obtain ⟨pos, nseg, uni, fnf0, fnfLt, fao0, faoLe⟩ := h.out
  unfold Synced at hs
  by_cases hlt : s.outA.fnf + 1 < s.outA.nseg
  · have ewf : ({ s.outA with cur := s.outA.cur + 1, fnf := s.outA.fnf + 1, fao := 0 } : SA α).WF s.sl :=
      ⟨pos, nseg, uni, by simp only []; omega, by simp only []; omega, by simp, by simp⟩
    refine ⟨s.setArr s.outSel { s.outA with cur := s.outA.cur + 1, fnf := s.outA.fnf + 1, fao := 0 },
      ?_, setArr_inv h _ ewf, ?_, ?_, ?_, by simp, by simp, ?_, by simp, by simp, ⟨[], by simp⟩, ?_⟩
    · unfold getNextOutSegment
      dsimp only
      have hpro : nextOutPrologue s.sl s.junk s.outA =
          { s.outA with cur := s.outA.cur + 1, fnf := s.outA.fnf + 1, fao := 0 } := by
        unfold nextOutPrologue
        dsimp only
        rw [if_pos (by omega), if_pos hlt]
      rw [hpro, if_pos (by dsimp only; omega)]
      dsimp only
      obtain ⟨f, o, hf, ho, hfl, hol, hfl2, hle⟩ := wf.total
      have hc : s.outA.cur + 1 = ((f + 1 : Nat) : Int) := by push_cast; omega
      rw [hc, pyGet_of_lt (by omega)]
      simp only [bind, Except.bind, pure, Except.pure, hf]
      rfl
    · simp only [Synced, outA_setArr_out]; omega
    · simp
    · simp
    · simp [inA, h.sel]
    · rw [if_neg (by omega)]; simp
  · have heq : s.outA.fnf + 1 = s.outA.nseg := by omega
    have ewf : (addSegment s.sl s.junk { s.outA with cur := s.outA.cur + 1 }).WF s.sl :=
      ⟨pos, by simp [addSegment, nseg], uni.append _ (by simp [newSeg]), by simp only [addSegment]; omega,
        by simp only [addSegment]; omega, by simp [addSegment], by simp [addSegment]⟩
    refine ⟨s.setArr s.outSel (addSegment s.sl s.junk { s.outA with cur := s.outA.cur + 1 }),
      ?_, setArr_inv h _ ewf, ?_, ?_, ?_, by simp, by simp, ?_, by simp, by simp,
      ⟨[newSeg s.sl s.junk], by simp [addSegment]⟩, ?_⟩
    · unfold getNextOutSegment
      dsimp only
      have hpro : nextOutPrologue s.sl s.junk s.outA =
          addSegment s.sl s.junk { s.outA with cur := s.outA.cur + 1 } := by
        unfold nextOutPrologue
        dsimp only
        rw [if_neg (by omega)]
      rw [hpro, if_pos (by dsimp only [addSegment]; omega)]
      dsimp only [addSegment]
      obtain ⟨f, o, hf, ho, hfl, hol, hfl2, hle⟩ := wf.total
      have hc : s.outA.cur + 1 = ((f + 1 : Nat) : Int) := by push_cast; omega
      rw [hc, pyGet_of_lt (by simp; omega)]
      simp only [bind, Except.bind, pure, Except.pure, hf]
      rfl
    · simp only [Synced, outA_setArr_out, addSegment]; omega
    · simp [addSegment]
    · simp [addSegment]
    · simp [inA, h.sel]
    · rw [if_pos heq]; simp [addSegment]

theorem nextOutPrologue_wf {sl : Nat} {junk : α} {a : SA α} (h : a.WF sl) :
    (nextOutPrologue sl junk a).WF sl := by
  obtain ⟨pos, nseg, uni, fnf0, fnfLt, fao0, faoLe⟩ := h
  unfold nextOutPrologue
  dsimp only
  split
  · split
    · exact ⟨pos, nseg, uni, by simp only []; omega, by simp only []; omega, by simp, by simp⟩
    · exact ⟨pos, nseg, uni, fnf0, fnfLt, fao0, faoLe⟩
  · exact ⟨pos, by simp [addSegment, nseg], uni.append _ (by simp [newSeg]),
      by simp only [addSegment]; omega, by simp only [addSegment]; omega, by simp [addSegment],
      by simp [addSegment]⟩

theorem getNextOutSegment_inv {s s' : SAP α} {v : View} (h : s.Inv)
    (e : s.getNextOutSegment = .ok (s', v)) : s'.Inv := by
  unfold getNextOutSegment at e
  dsimp only at e
  split at e
  · cases hg : pyGet (nextOutPrologue s.sl s.junk s.outA).segs
        (nextOutPrologue s.sl s.junk s.outA).cur with
    | error _ => rw [hg] at e; cases e
    | ok seg =>
      rw [hg] at e
      simp only [bind, Except.bind, pure, Except.pure, Except.ok.injEq, Prod.mk.injEq] at e
      rw [← e.1]
      exact setArr_inv h _ (nextOutPrologue_wf h.out)
  · cases e

theorem setNumber_inv {s : SAP α} (h : s.Inv) (io : InOut) (n : Nat) (h1 : 1 ≤ n)
    (h2 : n ≤ (s.arr (s.sel io)).nseg * s.sl) : (s.setNumberOfItems io n).Inv := by
  unfold setNumberOfItems
  dsimp only
  rw [show ((n : Int) - 1) = ((n - 1 : Nat) : Int) by omega, pyDivmod_nat]
  have wf := h.arr (s.sel io)
  have hmod : (n - 1) % s.sl < s.sl := Nat.mod_lt _ wf.pos
  have hd : (n - 1) / s.sl < (s.arr (s.sel io)).nseg := by
    rw [Nat.div_lt_iff_lt_mul wf.pos]; omega
  refine setArr_inv h _ ⟨wf.pos, wf.nseg, wf.uni, Int.natCast_nonneg _, ?_, ?_, ?_⟩
  · simp only []; omega
  · simp only []; omega
  · simp only []; omega

theorem reachable_inv {s : SAP α} (h : Reachable s) : s.Inv := by
  induction h with
  | new sl junk h => exact new_inv sl junk h
  | @push s s' x r _ e ih =>
    rcases pushBack_cases ih with hp | ⟨hf, hs⟩
    · obtain ⟨s'', e', hi, _⟩ := pushBack_ok ih x hp
      rw [e'] at e
      cases e
      exact hi
    · rw [pushBack_err x hf hs] at e
      cases e
  | setItem _ e ih => exact setItem_inv ih e
  | initOut _ ih => rw [initOutLoop_eq]; exact withCur_inv ih 0
  | @initInout s _ ih =>
    by_cases hc : s.contents = []
    · obtain ⟨s', e, _, _, _, _, _, _, hi, _⟩ := initInoutLoop_empty ih hc
      rw [e]; exact hi
    · obtain ⟨s', e, _, _, _, _, _, _, hi⟩ := initInoutLoop_nonempty ih hc
      rw [e]; exact hi
  | @next s io _ ih =>
    have : (s.getNextSegment io).1 = s.setArr (s.sel io)
        { s.arr (s.sel io) with cur := (s.arr (s.sel io)).cur + 1 } := by
      unfold getNextSegment
      dsimp only
      split
      · rfl
      · split
        · split <;> rfl
        · rfl
    rw [this]
    exact setArr_inv ih _ (WF_cur (ih.arr _) _)
  | nextOut _ e ih => exact getNextOutSegment_inv ih e
  | setNumber io n _ h1 h2 ih => exact setNumber_inv ih io n h1 h2
  | viewSet _ e ih => exact viewSet_inv ih e

/-- A sequence of pushes onto a container whose cursor is in step. -/
theorem pushAll_ok {s : SAP α} (h : s.Inv) (hs : s.Synced) (xs : List α) :
    ∃ s' rs, s.pushAll xs = .ok (s', rs) ∧ s'.Inv ∧ s'.Synced ∧ s'.contents = s.contents ++ xs ∧
      s'.sl = s.sl ∧ s'.inA = s.inA ∧ s'.inSel = s.inSel ∧ s'.outSel = s.outSel ∧
      rs = (List.range xs.length).map (fun i =>
        ((((s.contents.length + i) % s.sl : Nat) : Int), ((s.contents.length + i : Nat) : Int))) := by
  induction xs generalizing s with
  | nil => exact ⟨s, [], rfl, h, hs, by simp, rfl, rfl, rfl, rfl, rfl⟩
  | cons x xs ih =>
    obtain ⟨s1, e1, hi1, hc1, hsl1, hj1, hin1, his1, hos1, hcur1, _⟩ := pushBack_ok h x (.inr hs)
    have hs1 : s1.Synced := by unfold Synced at *; omega
    obtain ⟨s2, rs, e2, hi2, hs2, hc2, hsl2, hin2, his2, hos2, hrs⟩ := ih hi1 hs1
    refine ⟨s2, (((s.contents.length % s.sl : Nat) : Int), (s.contents.length : Int)) :: rs, ?_, hi2, hs2, ?_, by rw [hsl2, hsl1], by rw [hin2, hin1], by rw [his2, his1],
      by rw [hos2, hos1], ?_⟩
    · unfold pushAll
      rw [e1]
      simp only [bind, Except.bind]
      rw [e2]
      rfl
    · rw [hc2, hc1]; simp
    · rw [hrs, hc1, hsl1]
      simp only [List.length_cons, List.range_succ_eq_map, List.map_cons, List.map_map]
      congr 1
      apply List.map_congr_left
      intro i _
      simp only [Function.comp, List.length_append, List.length_cons, List.length_nil]
      rw [show s.contents.length + (0 + 1) + i = s.contents.length + i.succ by omega]

theorem pushAll_append (s : SAP α) (xs ys : List α) :
    s.pushAll (xs ++ ys) = (do
      let (s', rs) ← s.pushAll xs
      let (s'', rs') ← s'.pushAll ys
      return (s'', rs ++ rs')) := by
  induction xs generalizing s with
  | nil =>
    simp only [List.nil_append, pushAll, bind, Except.bind, pure, Except.pure]
    cases s.pushAll ys with
    | error _ => rfl
    | ok p => rfl
  | cons x xs ih =>
    simp only [List.cons_append, pushAll, bind, Except.bind, pure, Except.pure]
    cases s.pushBack x with
    | error _ => rfl
    | ok p =>
      simp only [ih, bind, Except.bind, pure, Except.pure]
      cases p.1.pushAll xs with
      | error _ => rfl
      | ok q =>
        simp only []
        cases q.1.pushAll ys with
        | error _ => rfl
        | ok r => rfl

end SAP
end Dt
