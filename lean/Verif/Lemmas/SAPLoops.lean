import Verif.Lemmas.SAPOps
import Verif.Spec.Chunk

/-! # Subscripts, read loops and in/out passes on a well-formed container -/

namespace Dt
namespace SAP
variable {α : Type _}

/-! ### Subscripts -/

theorem mod_decomp (i sl : Nat) : i / sl * sl + i % sl = i := by
  rw [Nat.mul_comm]; exact Nat.div_add_mod i sl

theorem getItem_eq {s : SAP α} (h : Uniform s.sl s.outA.segs) (hs : 0 < s.sl) (i : Nat) :
    s.getItem i = orIndexErr s.outA.segs.flatten[i]? := by
  unfold getItem
  rw [pyDivmod_nat]
  simp only []
  rw [load_eq h _ _ (Nat.mod_lt _ hs), mod_decomp]

theorem contents_length {s : SAP α} (h : s.Inv) :
    ((s.contents).length : Int) = s.getNumberOfItems := by
  rw [contents, h.out.items_length]; rfl

theorem contents_getElem? {s : SAP α} {i : Nat} (hi : i < s.contents.length) :
    s.outA.segs.flatten[i]? = some s.contents[i] := by
  have h1 : i < (s.outA.fnf * s.sl + s.outA.fao).toNat := by
    have := hi
    unfold contents SA.items at this
    rw [List.length_take] at this
    omega
  have h2 : i < s.outA.segs.flatten.length := by
    have := hi
    unfold contents SA.items at this
    rw [List.length_take] at this
    omega
  rw [List.getElem?_eq_getElem h2]
  simp [contents, SA.items]

theorem getItem_ok {s : SAP α} (h : s.Inv) {i : Nat} (hi : i < s.contents.length) :
    s.getItem i = .ok s.contents[i] := by
  rw [getItem_eq h.out.uni h.out.pos, contents_getElem? hi]; rfl

theorem getSegmentAndOffset_ok {s : SAP α} (h : s.Inv) {i : Nat} (hi : i < s.contents.length) :
    ∃ seg, s.getSegmentAndOffset i = .ok (seg, ((i % s.sl : Nat) : Int)) ∧
      seg[i % s.sl]? = some s.contents[i] := by
  have hg := contents_getElem? hi
  have hm : i % s.sl < s.sl := Nat.mod_lt _ h.out.pos
  conv at hg => lhs; rw [← mod_decomp i s.sl]
  rw [h.out.uni.flatten_get? _ _ hm] at hg
  unfold getSegmentAndOffset
  rw [pyDivmod_nat]
  simp only []
  rw [pyGet_nat]
  cases hq : s.outA.segs[i / s.sl]? with
  | none => rw [hq] at hg; simp at hg
  | some seg =>
    rw [hq] at hg
    exact ⟨seg, rfl, by simpa using hg⟩

theorem setItem_ok {s : SAP α} (h : s.Inv) {i : Nat} (hi : i < s.contents.length) (v : α) :
    ∃ s', s.setItem i v = .ok s' ∧ s'.Inv ∧ s'.contents = s.contents.set i v ∧
      s'.sl = s.sl ∧ s'.junk = s.junk ∧ s'.inA = s.inA ∧ s'.inSel = s.inSel ∧ s'.outSel = s.outSel ∧
      s'.outA.cur = s.outA.cur ∧ s'.outA.fnf = s.outA.fnf ∧ s'.outA.fao = s.outA.fao ∧
      s'.outA.nseg = s.outA.nseg := by
  have wf := h.out
  have hb : i < s.outA.segs.flatten.length := by
    have := hi
    unfold contents SA.items at this
    rw [List.length_take] at this
    omega
  rw [wf.uni.flatten_length] at hb
  have hq : i / s.sl < s.outA.segs.length := by
    rw [Nat.div_lt_iff_lt_mul wf.pos]; exact hb
  have hm : i % s.sl < s.sl := Nat.mod_lt _ wf.pos
  obtain ⟨segs', e, uni', len', flat'⟩ := store_eq wf.uni _ _ hq hm v
  rw [mod_decomp] at flat'
  have hsel := h.sel
  refine ⟨s.setArr s.outSel { s.outA with segs := segs' }, ?_, ⟨by simpa using hsel, ?_, ?_⟩, ?_,
    by simp, by simp, by simp [inA, hsel], by simp, by simp, by simp, by simp, by simp, by simp⟩
  · unfold setItem
    rw [pyDivmod_nat]
    simp only []
    rw [e]
    rfl
  · simp only [setArr_sl]
    rw [outA_setArr_out]
    exact ⟨wf.pos, by simp [len', wf.nseg], uni', wf.fnf0, wf.fnfLt, wf.fao0, wf.faoLe⟩
  · have := h.inn
    simpa [inA, hsel] using this
  · unfold contents SA.items
    simp only [outA_setArr_out, setArr_sl, flat']
    rw [List.take_set]

/-! ### Read loops -/

/-- The container with the cursor of the "out" array at `c`. -/
def withCur (s : SAP α) (c : Int) : SAP α := s.setArr s.outSel { s.outA with cur := c }

@[simp] theorem withCur_sl (s : SAP α) (c : Int) : (s.withCur c).sl = s.sl := by simp [withCur]
@[simp] theorem withCur_junk (s : SAP α) (c : Int) : (s.withCur c).junk = s.junk := by simp [withCur]
@[simp] theorem withCur_outSel (s : SAP α) (c : Int) : (s.withCur c).outSel = s.outSel := by
  simp [withCur]
@[simp] theorem withCur_inSel (s : SAP α) (c : Int) : (s.withCur c).inSel = s.inSel := by
  simp [withCur]
@[simp] theorem withCur_outA (s : SAP α) (c : Int) :
    (s.withCur c).outA = { s.outA with cur := c } := by simp [withCur]
@[simp] theorem withCur_withCur (s : SAP α) (c d : Int) : (s.withCur c).withCur d = s.withCur d := by
  simp [withCur]
@[simp] theorem withCur_contents (s : SAP α) (c : Int) : (s.withCur c).contents = s.contents := by
  simp [contents, SA.items]

theorem withCur_inA {s : SAP α} (h : s.inSel = !s.outSel) (c : Int) : (s.withCur c).inA = s.inA := by
  simp [withCur, inA, h]

theorem WF_cur {sl : Nat} {a : SA α} (h : a.WF sl) (c : Int) : ({ a with cur := c } : SA α).WF sl :=
  ⟨h.pos, h.nseg, h.uni, h.fnf0, h.fnfLt, h.fao0, h.faoLe⟩

theorem withCur_inv {s : SAP α} (h : s.Inv) (c : Int) : (s.withCur c).Inv :=
  ⟨by simpa using h.sel, by simpa using WF_cur h.out c, by rw [withCur_inA h.sel]; simpa using h.inn⟩

theorem initOutLoop_eq (s : SAP α) : s.initOutLoop =
    (s.withCur 0, if s.outA.fnf = 0 ∧ s.outA.fao = 0 then (0, none)
      else (firstCount s.sl s.outA, some ⟨s.outSel, 0⟩)) := by
  unfold initOutLoop withCur firstCount
  dsimp only
  split <;> rfl

theorem getNextSegment_out_eq (s : SAP α) (c : Int) : (s.withCur c).getNextSegment .Out =
    (s.withCur (c + 1),
      if s.outA.fnf < c + 1 then (0, none)
      else if s.outA.fnf = c + 1 then
        if s.outA.fao = 0 then (0, none) else (s.outA.fao, some ⟨s.outSel, c + 1⟩)
      else ((s.sl : Int), some ⟨s.outSel, c + 1⟩)) := by
  unfold getNextSegment
  have hsel : (s.withCur c).sel .Out = s.outSel := by simp [sel]
  rw [hsel]
  have harr : (s.withCur c).arr s.outSel = { s.outA with cur := c } := by
    simp [withCur]
  dsimp only at harr ⊢
  rw [harr]
  dsimp only
  rw [show (s.withCur c).setArr s.outSel { s.outA with cur := c + 1 } = s.withCur (c + 1) by
    simp [withCur]]
  rw [withCur_sl]
  split
  · rfl
  · split
    · split <;> rfl
    · rfl

theorem viewItems_ok {s : SAP α} (q n : Nat) (hq : q < s.outA.segs.length)
    (c : Int) :
    (s.withCur c).viewItems ⟨s.outSel, q⟩ n = .ok ((s.outA.segs[q]).take n) := by
  unfold viewItems
  have : (s.withCur c).arr s.outSel = { s.outA with cur := c } := by simp [withCur]
  simp only [this]
  rw [pyGet_of_lt hq]
  simp only [bind, Except.bind, pure, Except.pure, pySlice0_nat]

/-- Where the cursor ends after a complete read loop that has visited at least
one piece. -/
def endCur (a : SA α) : Int := if a.fao = 0 then a.fnf else a.fnf + 1

theorem readPieces_ok {s : SAP α} (h : s.outA.WF s.sl) (k q : Nat)
    (hq : (q : Int) + k = s.outA.fnf) (hne : s.outA.fnf = q → s.outA.fao ≠ 0) (fuel : Nat)
    (hfuel : k < fuel) :
    readPieces fuel (s.withCur q) (if s.outA.fnf = q then s.outA.fao else s.sl)
        (some ⟨s.outSel, q⟩)
      = .ok (s.withCur (endCur s.outA), Spec.chunk s.sl (s.contents.drop (q * s.sl))) := by
  obtain ⟨f, o, hf, ho, hfl, hol, hfl2, hle⟩ := h.total
  have hcont : s.contents = s.outA.segs.flatten.take (f * s.sl + o) := by
    unfold contents SA.items; rw [hf, ho, toNat_cast_add]
  induction k generalizing q fuel with
  | zero =>
    have hqf : f = q := by omega
    subst hqf
    obtain ⟨fuel, rfl⟩ : ∃ m, fuel = m + 1 := ⟨fuel - 1, by omega⟩
    have ho0 : o ≠ 0 := by have := hne hf; omega
    rw [readPieces, if_pos hf, ho, viewItems_ok f o hfl]
    simp only [bind, Except.bind]
    rw [getNextSegment_out_eq, if_pos (by omega)]
    simp only [readPieces, pure, Except.pure]
    have hend : endCur s.outA = (f : Int) + 1 := by
      unfold endCur; rw [if_neg (by omega), hf]
    rw [hend]
    have hdrop : s.contents.drop (f * s.sl) = (s.outA.segs[f]).take o := by
      rw [hcont, List.drop_take, h.uni.getElem_eq f hfl, List.take_take,
        Nat.add_sub_cancel_left, Nat.min_eq_left hol]
    have hlen : ((s.outA.segs[f]).take o).length = o := by
      rw [List.length_take, h.uni _ (List.getElem_mem hfl), Nat.min_eq_left hol]
    have hne' : (s.outA.segs[f]).take o ≠ [] := by
      intro hc; rw [hc] at hlen; simp at hlen; omega
    rw [hdrop, Spec.chunk_of_ne_nil h.pos hne',
      List.take_of_length_le (l := List.take o _) (by omega),
      List.drop_eq_nil_of_le (as := List.take o _) (by omega), Spec.chunk_nil]
  | succ k ih =>
    obtain ⟨fuel, rfl⟩ : ∃ m, fuel = m + 1 := ⟨fuel - 1, by omega⟩
    have hql : q < s.outA.segs.length := by omega
    have hmul : (q + 1) * s.sl ≤ f * s.sl := Nat.mul_le_mul_right _ (by omega)
    rw [Nat.succ_mul] at hmul
    rw [readPieces, if_neg (by omega), viewItems_ok q s.sl hql]
    simp only [bind, Except.bind]
    rw [getNextSegment_out_eq, if_neg (by omega)]
    have hcl : s.contents.length = f * s.sl + o := by
      rw [hcont, List.length_take]; omega
    have hpiece : (s.contents.drop (q * s.sl)).take s.sl = (s.outA.segs[q]).take s.sl := by
      rw [hcont, List.drop_take, h.uni.getElem_eq q hql, List.take_take, List.take_take]
      congr 1
      omega
    have hne' : s.contents.drop (q * s.sl) ≠ [] := by
      intro hc
      have := congrArg List.length hc
      simp [hcl] at this
      have := h.pos
      omega
    have hchunk := Spec.chunk_of_ne_nil h.pos hne'
    rw [List.drop_drop, show q * s.sl + s.sl = (q + 1) * s.sl by rw [Nat.succ_mul], hpiece]
      at hchunk
    rw [hchunk]
    by_cases hlast : s.outA.fnf = (q : Int) + 1
    · rw [if_pos hlast]
      by_cases ho0 : s.outA.fao = 0
      · rw [if_pos ho0]
        have ho0' : o = 0 := by omega
        have hqf : f = q + 1 := by omega
        have hd : s.contents.drop ((q + 1) * s.sl) = [] := by
          apply List.drop_eq_nil_of_le
          rw [hcl, ho0', hqf]; omega
        simp only [readPieces, pure, Except.pure]
        rw [hd, Spec.chunk_nil]
        have hend : endCur s.outA = (q : Int) + 1 := by
          unfold endCur; rw [if_pos ho0, hlast]
        rw [hend]
      · rw [if_neg ho0]
        have := ih (q + 1) (by push_cast; omega) (by intro _; exact ho0) fuel (by omega)
        rw [if_pos (by push_cast; omega)] at this
        push_cast at this
        rw [this]
        rfl
    · rw [if_neg hlast]
      have := ih (q + 1) (by push_cast; omega) (by intro hh; push_cast at hh; omega) fuel (by omega)
      rw [if_neg (by push_cast; omega)] at this
      push_cast at this
      rw [this]
      rfl

theorem contents_nil_iff {s : SAP α} (h : s.outA.WF s.sl) :
    s.contents = [] ↔ s.outA.fnf = 0 ∧ s.outA.fao = 0 := by
  rw [← List.length_eq_zero_iff]
  have hl := h.items_length
  have h1 := h.fnf0
  have h2 := h.fao0
  have h3 := h.pos
  unfold contents
  constructor
  · intro h0
    rw [h0] at hl
    have : 0 ≤ s.outA.fnf * (s.sl : Int) := Int.mul_nonneg h1 (by omega)
    have h4 : s.outA.fnf * (s.sl : Int) = 0 := by omega
    rcases Int.mul_eq_zero.1 h4 with h5 | h5
    · exact ⟨h5, by omega⟩
    · omega
  · rintro ⟨h4, h5⟩
    rw [h4, h5] at hl
    simp at hl
    simp [hl]

/-- A complete read loop yields the contents cut into segments and changes
only the cursor. -/
theorem readLoop_ok {s : SAP α} (h : s.outA.WF s.sl) :
    s.readLoop = .ok (s.withCur (if s.contents = [] then 0 else endCur s.outA),
      Spec.chunk s.sl s.contents) := by
  unfold readLoop
  rw [initOutLoop_eq]
  by_cases h0 : s.contents = []
  · have h1 := (contents_nil_iff h).1 h0
    rw [if_pos h1, if_pos h0, h0, Spec.chunk_nil]
    simp [readPieces]
  · have h1 : ¬ (s.outA.fnf = 0 ∧ s.outA.fao = 0) := fun hc => h0 ((contents_nil_iff h).2 hc)
    rw [if_neg h1, if_neg h0]
    obtain ⟨f, o, hf, ho, hfl, hol, hfl2, hle⟩ := h.total
    have := readPieces_ok h f 0 (by simp [hf]) (fun hc => fun hd => h1 ⟨by simpa using hc, hd⟩)
      (s.outA.nseg + 1) (by rw [h.nseg]; omega)
    simp only [firstCount]
    simpa using this

/-! ### set_number_of_items -/

theorem setNumberOfItems_ok {s : SAP α} (h : s.Inv) (n : Nat) (h1 : 1 ≤ n)
    (h2 : n ≤ s.outA.nseg * s.sl) :
    (s.setNumberOfItems .Out n).Inv ∧
      (s.setNumberOfItems .Out n).contents = s.outA.segs.flatten.take n ∧
      (s.setNumberOfItems .Out n).getNumberOfItems = n ∧
      (s.setNumberOfItems .Out n).outA.cur = s.outA.cur ∧
      (s.setNumberOfItems .Out n).outA.fnf = ((n - 1) / s.sl : Nat) ∧
      (s.setNumberOfItems .Out n).outA.fao = ((n - 1) % s.sl + 1 : Nat) ∧
      (s.setNumberOfItems .Out n).outA.segs = s.outA.segs ∧
      (s.setNumberOfItems .Out n).outA.nseg = s.outA.nseg ∧
      (s.setNumberOfItems .Out n).sl = s.sl ∧
      (s.setNumberOfItems .Out n).junk = s.junk ∧
      (s.setNumberOfItems .Out n).inSel = s.inSel ∧
      (s.setNumberOfItems .Out n).outSel = s.outSel ∧
      (s.setNumberOfItems .Out n).inA = s.inA := by
  have wf := h.out
  have hpos := wf.pos
  have heq : s.setNumberOfItems .Out n = s.setArr s.outSel { s.outA with
      fnf := ((n - 1) / s.sl : Nat), fao := ((n - 1) % s.sl + 1 : Nat) } := by
    unfold setNumberOfItems sel
    dsimp only
    rw [show ((n : Int) - 1) = ((n - 1 : Nat) : Int) by omega, pyDivmod_nat]
    dsimp only
    simp [outA]
  have hsum : (n - 1) / s.sl * s.sl + ((n - 1) % s.sl + 1) = n := by
    have := mod_decomp (n - 1) s.sl; omega
  have hmod : (n - 1) % s.sl < s.sl := Nat.mod_lt _ hpos
  rw [heq]
  refine ⟨⟨by simpa using h.sel, ?_, ?_⟩, ?_, ?_, by simp, by simp, by simp, by simp, by simp, by simp,
    by simp, by simp, by simp, by simp [inA, h.sel]⟩
  · simp only [setArr_sl]
    rw [outA_setArr_out]
    refine ⟨hpos, wf.nseg, wf.uni, Int.natCast_nonneg _, ?_, by simp only []; omega, by simp only []; omega⟩
    simp only []
    have : (n - 1) / s.sl < s.outA.nseg := by
      rw [Nat.div_lt_iff_lt_mul hpos]; omega
    omega
  · have := h.inn
    simpa [inA, h.sel] using this
  · unfold contents SA.items
    simp only [outA_setArr_out, setArr_sl]
    rw [toNat_cast_add, hsum]
  · unfold getNumberOfItems
    simp only [outA_setArr_out, setArr_sl]
    exact_mod_cast hsum

/-! ### The in/out pass -/

theorem initInoutLoop_nonempty {s : SAP α} (h : s.Inv) (hne : s.contents ≠ []) :
    ∃ s', s.initInoutLoop = (s', (firstCount s.sl s.outA,
        some (⟨s'.inSel, 0⟩, ⟨s'.outSel, 0⟩))) ∧
      s'.inSel = s.outSel ∧ s'.outSel = s.inSel ∧ s'.sl = s.sl ∧ s'.junk = s.junk ∧
      s'.inA = { s.outA with cur := 0 } ∧
      s'.outA = { s.inA with cur := 0, fnf := 0, fao := 0 } ∧ s'.Inv := by
  have hsel := h.sel
  have hn : ¬ (s.outA.fnf = 0 ∧ s.outA.fao = 0) := fun hc => hne ((contents_nil_iff h.out).2 hc)
  have hin := h.inn
  have hout := h.out
  have hI : ({ s.inA with cur := 0, fnf := 0, fao := 0 } : SA α).WF s.sl :=
    ⟨hin.pos, hin.nseg, hin.uni, by simp, by
      have := hin.fnfLt; have := hin.fnf0; simp only []; omega, by simp, by simp⟩
  have hO := WF_cur hout 0
  obtain ⟨sl, junk, a0, a1, i, o⟩ := s
  simp only at hsel
  subst hsel
  cases o
  · simp only [outA, inA, arr, contents, Bool.not_false, if_true, Bool.false_eq_true, if_false] at *
    refine ⟨⟨sl, junk, { a0 with cur := 0 }, { a1 with cur := 0, fnf := 0, fao := 0 }, false, true⟩,
      ?_, rfl, rfl, rfl, rfl, rfl, rfl, ⟨rfl, hI, hO⟩⟩
    unfold initInoutLoop
    simp only [setArr, arr, Bool.not_false, Bool.not_true, if_true, Bool.false_eq_true, if_false]
    rw [if_neg hn]
    rfl
  · simp only [outA, inA, arr, contents, Bool.not_true, if_true, Bool.false_eq_true, if_false] at *
    refine ⟨⟨sl, junk, { a0 with cur := 0, fnf := 0, fao := 0 }, { a1 with cur := 0 }, true, false⟩,
      ?_, rfl, rfl, rfl, rfl, rfl, rfl, ⟨rfl, hI, hO⟩⟩
    unfold initInoutLoop
    simp only [setArr, arr, Bool.not_false, Bool.not_true, if_true, Bool.false_eq_true, if_false]
    rw [if_neg hn]
    rfl

theorem initInoutLoop_empty {s : SAP α} (h : s.Inv) (he : s.contents = []) :
    ∃ s', s.initInoutLoop = (s', (0, none)) ∧
      s'.inSel = s.inSel ∧ s'.outSel = s.outSel ∧ s'.sl = s.sl ∧ s'.junk = s.junk ∧
      s'.outA = { s.outA with cur := 0 } ∧
      s'.inA = { s.inA with cur := 0, fnf := 0, fao := 0 } ∧ s'.Inv ∧ s'.contents = [] ∧
      s'.Synced := by
  have hsel := h.sel
  have hn : s.outA.fnf = 0 ∧ s.outA.fao = 0 := (contents_nil_iff h.out).1 he
  have hin := h.inn
  have hout := h.out
  have hI : ({ s.inA with cur := 0, fnf := 0, fao := 0 } : SA α).WF s.sl :=
    ⟨hin.pos, hin.nseg, hin.uni, by simp, by
      have := hin.fnfLt; have := hin.fnf0; simp only []; omega, by simp, by simp⟩
  have hO := WF_cur hout 0
  obtain ⟨sl, junk, a0, a1, i, o⟩ := s
  simp only at hsel
  subst hsel
  cases o
  · simp only [outA, inA, arr, contents, Bool.not_false, if_true, Bool.false_eq_true, if_false] at *
    refine ⟨⟨sl, junk, { a0 with cur := 0 }, { a1 with cur := 0, fnf := 0, fao := 0 }, true, false⟩,
      ?_, rfl, rfl, rfl, rfl, rfl, rfl, ⟨rfl, hO, hI⟩, ?_, ?_⟩
    · unfold initInoutLoop
      simp only [setArr, arr, Bool.not_false, Bool.not_true, if_true, Bool.false_eq_true, if_false]
      rw [if_pos hn]
    · exact he
    · simp [Synced, outA, arr, hn.1]
  · simp only [outA, inA, arr, contents, Bool.not_true, if_true, Bool.false_eq_true, if_false] at *
    refine ⟨⟨sl, junk, { a0 with cur := 0, fnf := 0, fao := 0 }, { a1 with cur := 0 }, false, true⟩,
      ?_, rfl, rfl, rfl, rfl, rfl, rfl, ⟨rfl, hO, hI⟩, ?_, ?_⟩
    · unfold initInoutLoop
      simp only [setArr, arr, Bool.not_false, Bool.not_true, if_true, Bool.false_eq_true, if_false]
      rw [if_pos hn]
    · exact he
    · simp [Synced, outA, arr, hn.1]

/-- Declaring zero items: the counters become -1 and the segment length. -/
theorem setNumber_zero {s : SAP α} (hpos : 0 < s.sl) :
    (s.setNumberOfItems .Out 0).outA = { s.outA with fnf := -1, fao := s.sl } ∧
      (s.setNumberOfItems .Out 0).sl = s.sl := by
  have hdm : pyDivmod ((0 : Int) - 1) s.sl = (-1, (s.sl : Int) - 1) := by
    unfold pyDivmod
    have h1 := Int.mul_fdiv_add_fmod (0 - 1) s.sl
    have h4 : Int.fdiv (0 - 1) s.sl = -1 := by
      have hd : Int.fdiv (-1) (s.sl : Int) = -1 := by
        rw [Int.fdiv_eq_ediv_of_nonneg _ (by omega)]
        exact Int.ediv_eq_neg_one_of_neg_of_le (by omega) (by omega)
      simpa using hd
    rw [h4] at h1
    rw [h4]
    ext
    · rfl
    · simp only []; omega
  unfold setNumberOfItems
  dsimp only
  rw [hdm]
  simp [sel, outA]

/-- With the counter at -1 a read loop yields the first segment, whole. -/
theorem readLoop_ghost {s : SAP α} (hf : s.outA.fnf = -1) (h0 : 0 < s.outA.segs.length) :
    s.readLoop = .ok (s.withCur 1, [(s.outA.segs[0]).take s.sl]) := by
  unfold readLoop
  rw [initOutLoop_eq]
  rw [if_neg (by omega)]
  simp only [firstCount]
  rw [if_neg (by omega)]
  have hv := viewItems_ok 0 s.sl h0 ((0 : Nat) : Int)
  simp only [Int.natCast_zero] at hv
  simp only [readPieces, hv, bind, Except.bind, getNextSegment_out_eq]
  rw [if_pos (by omega)]
  cases hn : s.outA.nseg <;> simp [readPieces, pure, Except.pure]

end SAP
end Dt
