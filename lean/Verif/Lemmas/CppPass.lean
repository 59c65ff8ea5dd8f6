import Verif.Model.CppPass
import Verif.Spec.CppPass
import Verif.Lemmas.CppSAP
import Verif.Lemmas.MoverPost

/-! # The compiled mover loop refines the pass on a plain list -/

set_option linter.unusedSectionVars false

namespace Dt
namespace CppMover
open SAP
variable {σ α : Type}

/-- The Python locals with the same values. -/
def _root_.Dt.CPass.py (ps : CPass σ α) : Pass σ α :=
  ⟨ps.s.py, ps.vout, ps.ipOut, ps.count, ps.indexChange, ps.st⟩

theorem viewGet_py (s : CSAP α) (v : View) (hv : 0 ≤ v.seg) (i : Nat) {x : α}
    (h : s.py.viewGet v i = .ok x) : viewGet s v i = .ok x := by
  unfold SAP.viewGet SAP.load at h
  unfold viewGet
  rw [cGet_py _ hv]
  rw [CSAP.py_arr] at h
  simp only [bind, Except.bind, CSA.py] at h ⊢
  cases e : pyGet (s.arr v.arr).segs v.seg with
  | error _ => rw [e] at h; cases h
  | ok vec =>
    rw [e] at h
    simp only at h ⊢
    rw [cGet_py _ (by omega), h]

theorem viewSet_py {s : CSAP α} (hsl : 0 < s.sl) (v : View) (hv : 0 ≤ v.seg) (i : Nat) (x : α)
    {t : SAP α} (h : s.py.viewSet v i x = .ok t) :
    ∃ s', s.viewSet v i x = .ok s' ∧ s'.py = t := by
  have := same_exec hsl (m := .write v (i + 1) i x) ⟨hv, by omega, by omega⟩
  simp only [pyExec, cppExec, h, bind, Except.bind, pure, Except.pure] at this
  rw [if_pos (by omega)] at this
  cases e : s.viewSet v i x with
  | error _ => rw [e] at this; simp [Same] at this
  | ok s' =>
    rw [e] at this
    simp only [Same] at this
    exact ⟨s', rfl, this.1.symm⟩

theorem getNextOut_py {s : CSAP α} (hsl : 0 < s.sl) {t : SAP α} {v : View}
    (h : s.py.getNextOutSegment = .ok (t, v)) :
    ∃ s', s.getNextOutSegment = .ok (s', v) ∧ s'.py = t := by
  have := same_exec hsl (m := .nextOut) trivial
  simp only [pyExec, cppExec, h, bind, Except.bind, pure, Except.pure] at this
  cases e : s.getNextOutSegment with
  | error _ => rw [e] at this; simp [Same] at this
  | ok r =>
    obtain ⟨s', v'⟩ := r
    rw [e] at this
    simp only [Same, Reply.seg.injEq, Option.some.injEq] at this
    exact ⟨s', by rw [this.2.2], this.1.symm⟩

theorem getNext_py {s : CSAP α} (hsl : 0 < s.sl) (io : InOut) :
    s.py.getNextSegment io = ((s.getNextSegment io).1.py, (s.getNextSegment io).2) := by
  have := same_exec hsl (m := (.next io : Method α)) trivial
  simp only [pyExec, cppExec, pure, Except.pure, Same, Reply.seg.injEq] at this
  obtain ⟨h1, h2, h3⟩ := this
  rw [← h1]
  refine Prod.ext rfl (Prod.ext h2 h3)

theorem initInout_py {s : CSAP α} (hsl : 0 < s.sl) :
    s.py.initInoutLoop = (s.initInoutLoop.1.py, s.initInoutLoop.2) := by
  have := same_exec hsl (m := (.initInout : Method α)) trivial
  simp only [pyExec, cppExec, pure, Except.pure, Same, Reply.segs2.injEq] at this
  obtain ⟨h1, h2, h3⟩ := this
  rw [← h1]
  refine Prod.ext rfl (Prod.ext h2 h3)

theorem fullIndices_py {s : CSAP α} (i j : Int) : s.py.getFullIndices i j = s.getFullIndices i j := by
  simp only [SAP.getFullIndices, CSAP.getFullIndices]
  rw [show s.py.outA = (s.arr s.outSel).py from CSAP.py_arr s s.outSel,
    show s.py.inA = (s.arr s.inSel).py from CSAP.py_arr s s.inSel]; rfl

theorem countFull_py (ps : CPass σ α) : (countFull ps).py = Mover.countFull ps.py := by
  unfold countFull Mover.countFull
  simp only [show ps.py.ipOut = ps.ipOut from rfl, show ps.py.s.sl = ps.s.sl from rfl]
  split <;> rfl

theorem nextOut_py {ps : CPass σ α} (hsl : 0 < ps.s.sl) {qs : Pass σ α}
    (h : Mover.nextOut ps.py = .ok qs) : ∃ ps', nextOut ps = .ok ps' ∧ ps'.py = qs := by
  unfold Mover.nextOut at h
  unfold nextOut
  simp only [show ps.py.ipOut = ps.ipOut from rfl, show ps.py.s.sl = ps.s.sl from rfl] at h
  split
  · rename_i hc
    rw [if_pos hc] at h
    simp only [bind, Except.bind, pure, Except.pure] at h ⊢
    cases e : ps.py.s.getNextOutSegment with
    | error _ => rw [e] at h; cases h
    | ok r =>
      obtain ⟨t, v⟩ := r
      rw [e] at h
      obtain ⟨s', e', h'⟩ := getNextOut_py (s := ps.s) hsl e
      rw [e']
      simp only [Except.ok.injEq] at h ⊢
      refine ⟨_, rfl, ?_⟩
      rw [← h, ← h']
      rfl
  · rename_i hc
    rw [if_neg hc] at h
    simp only [Except.ok.injEq] at h
    exact ⟨ps, rfl, h⟩

open Mover in
theorem moveOne_ok {skip : α → Bool} {adv : Adv σ α} {sl : Nat} {o : Bool} {a : SA α} {c : Nat}
    {ps : CPass σ α} {ys : List α} (h : PInv sl o a c ps.py ys) (ha : a.WF sl) (ip : Nat)
    (hip : ip < sl) (hx : c * sl + ip < (a.items sl).length)
    (hic : ps.indexChange = decide (ys.length ≠ c * sl + ip)) :
    match Spec.skipping skip adv ps.st ((c * sl + ip : Nat) : Int) (ys.length : Int)
        (decide (ys.length ≠ c * sl + ip)) ((a.items sl)[c * sl + ip]) with
    | .error e => CppMover.moveOne skip adv ⟨!o, (c : Int)⟩ ip ps = .error e
    | .ok (st', p', keep) => ∃ ps', CppMover.moveOne skip adv ⟨!o, (c : Int)⟩ ip ps = .ok ps' ∧
        PInv sl o a c ps'.py (if keep then ys ++ [p'] else ys) ∧ ps'.st = st' ∧
        ps'.indexChange = (if keep then ps.indexChange else true) ∧
        (skip ((a.items sl)[c * sl + ip]) = true → ps'.ipOut = ps.ipOut) ∧
        (skip ((a.items sl)[c * sl + ip]) = false →
          (keep = true → 0 < ps'.ipOut) ∧ (keep = false → ps'.ipOut < sl)) := by
  have hpos : 0 < ps.s.sl := h.inv.out.pos
  have hread := viewGet_py ps.s ⟨!o, (c : Int)⟩ (by simp) ip (read_ok h ha ip hip hx)
  unfold CppMover.moveOne
  rw [hread]
  unfold Spec.skipping
  simp only [bind, Except.bind, pure, Except.pure]
  by_cases hs : skip ((a.items sl)[c * sl + ip]) = true
  · simp only [hs, if_true]
    refine ⟨_, rfl, ?_, rfl, rfl, fun _ => rfl, fun hf => by cases hf⟩
    exact ⟨h.inv, h.sync, h.sleq, h.osel, h.inn, h.fao, h.vout, h.ip, h.len, h.wr, h.cnt⟩
  · simp only [hs, Bool.false_eq_true, if_false]
    obtain ⟨qs, e1, h1, hlt, hst, hic1⟩ := nextOut_ok h
    obtain ⟨ps1, e1', rfl⟩ := nextOut_py hpos e1
    have hpos1 : 0 < ps1.s.sl := h1.inv.out.pos
    have hfi : ps1.s.getFullIndices ip ps1.ipOut =
        (((c * sl + ip : Nat) : Int), (ys.length : Int)) := by
      rw [← fullIndices_py]
      unfold SAP.getFullIndices
      have hs := h1.sync
      unfold Synced at hs
      have h2 := h1.inn
      have h3 := h1.len
      have h4 := h1.sleq
      simp only [CPass.py] at hs h2 h3 h4
      rw [h2, hs, h4, h3]
      push_cast
      rfl
    have hst' : ps1.st = ps.st := hst
    have hic1' : ps1.indexChange = ps.indexChange := hic1
    have hic3 : ps1.indexChange = decide (ys.length ≠ c * sl + ip) := hic1'.trans hic
    unfold CppMover.moveKept
    rw [e1']
    simp only [bind, Except.bind, pure, Except.pure, hfi, hst', hic1', hic]
    cases hadv : adv ps.st ((c * sl + ip : Nat) : Int) (ys.length : Int)
        (decide (ys.length ≠ c * sl + ip)) ((a.items sl)[c * sl + ip]) with
    | error e => rfl
    | ok r =>
      obtain ⟨st', p', keep⟩ := r
      simp only
      obtain ⟨t, e2, hk, hd⟩ := write_ok h1 hlt p' st'
      have hvseg : 0 ≤ ps1.vout.seg := by
        have := h1.vout
        simp only [CPass.py] at this
        rw [this]
        exact h1.inv.out.fnf0
      obtain ⟨s', e3, rfl⟩ := viewSet_py (s := ps1.s) hpos1 ps1.vout hvseg ps1.ipOut p' e2
      rw [e3]
      cases keep with
      | true =>
        simp only [if_true]
        rw [← hic3]
        refine ⟨_, rfl, ?_, ?_, ?_, by simp, fun _ => ⟨fun _ => ?_, by simp⟩⟩
        · rw [countFull_py]; exact hk
        · unfold CppMover.countFull; split <;> rfl
        · unfold CppMover.countFull; split <;> rfl
        · unfold CppMover.countFull; split <;> simp
      | false =>
        simp only [Bool.false_eq_true, if_false]
        refine ⟨_, rfl, ?_, ?_, ?_, by simp, fun _ => ⟨by simp, fun _ => ?_⟩⟩
        · rw [countFull_py]; exact hd true
        · unfold CppMover.countFull; split <;> rfl
        · unfold CppMover.countFull; split <;> rfl
        · unfold CppMover.countFull; split <;> exact hlt

/-- How far the current "out" segment is filled. -/
def LastOk (sl : Nat) (lf : Option Bool) (ip0 : Nat) (ps : CPass σ α) : Prop :=
  (lf = some true → 0 < ps.ipOut) ∧ (lf = some false → ps.ipOut < sl) ∧
    (lf = none → ps.ipOut = ip0)

/-- Result of a stretch of the pass compared with the specification. -/
def Agree (sl : Nat) (o : Bool) (a : SA α) (c : Nat) (i : Nat) (ys : List α) (ip0 : Nat)
    (r : Except Err (CPass σ α)) (sp : Except Err (σ × List α)) (lf : Option Bool) : Prop :=
  match sp with
  | .error e => r = .error e
  | .ok (st', zs) => ∃ ps', r = .ok ps' ∧ Mover.PInv sl o a c ps'.py (ys ++ zs) ∧ ps'.st = st' ∧
      ps'.indexChange = decide ((ys ++ zs).length ≠ i) ∧ (ys ++ zs).length ≤ i ∧
      LastOk sl lf ip0 ps'

theorem lastMoved_append {skip : α → Bool} {adv : Adv σ α} {xs' : List α} (xs : List α) :
    ∀ (st : σ) (i o : Nat) (st' : σ) (ys : List α),
    Spec.pass (Spec.skipping skip adv) st i o xs = .ok (st', ys) →
    Spec.lastMoved skip adv st i o (xs ++ xs') =
      match Spec.lastMoved skip adv st' (i + xs.length) (o + ys.length) xs' with
      | some b => some b
      | none => Spec.lastMoved skip adv st i o xs := by
  induction xs with
  | nil =>
    intro st i o st' ys h
    simp only [Spec.pass, Except.ok.injEq, Prod.mk.injEq] at h
    obtain ⟨rfl, rfl⟩ := h
    simp only [List.nil_append, List.length_nil, Nat.add_zero, Spec.lastMoved]
    cases Spec.lastMoved skip adv st i o xs' <;> rfl
  | cons x xs ih =>
    intro st i o st' ys h
    simp only [Spec.pass] at h
    simp only [List.cons_append, Spec.lastMoved]
    by_cases hs : skip x = true
    · simp only [Spec.skipping, hs, if_true] at h ⊢
      rw [ih st (i + 1) o st' ys h]
      simp only [List.length_cons]
      rw [show i + 1 + xs.length = i + (xs.length + 1) by omega]
    · have hs' : Spec.skipping skip adv st i o (decide (o ≠ i)) x =
          adv st i o (decide (o ≠ i)) x := by simp [Spec.skipping, hs]
      rw [hs'] at h
      simp only [hs, if_false, Bool.false_eq_true]
      cases hadv : adv st i o (decide (o ≠ i)) x with
      | error e => rw [hadv] at h; cases h
      | ok q =>
        obtain ⟨st1, p', keep⟩ := q
        rw [hadv] at h
        simp only [List.length_cons]
        cases keep with
        | true =>
          simp only [] at h
          cases hp : Spec.pass (Spec.skipping skip adv) st1 (i + 1) (o + 1) xs with
          | error e => rw [hp] at h; cases h
          | ok r =>
            obtain ⟨st2, zs⟩ := r
            rw [hp] at h
            simp only [Except.ok.injEq, Prod.mk.injEq] at h
            obtain ⟨rfl, rfl⟩ := h
            simp only [if_true]
            rw [ih st1 (i + 1) (o + 1) st2 zs hp]
            simp only [List.length_cons]
            rw [show i + 1 + xs.length = i + (xs.length + 1) by omega,
              show o + 1 + zs.length = o + (zs.length + 1) by omega]
            cases Spec.lastMoved skip adv st2 (i + (xs.length + 1)) (o + (zs.length + 1)) xs' <;> rfl
        | false =>
          simp only [] at h
          simp only [Bool.false_eq_true, if_false]
          rw [ih st1 (i + 1) o st' ys h]
          rw [show i + 1 + xs.length = i + (xs.length + 1) by omega]
          cases Spec.lastMoved skip adv st' (i + (xs.length + 1)) (o + ys.length) xs' <;> rfl

theorem moveItems_ok {skip : α → Bool} {adv : Adv σ α} {sl : Nat} {o : Bool} {a : SA α} {c : Nat}
    (ha : a.WF sl) (k : Nat) : ∀ (ip : Nat) (ps : CPass σ α) (ys : List α),
    Mover.PInv sl o a c ps.py ys →
    ip + k ≤ sl → c * sl + ip + k ≤ (a.items sl).length →
    ps.indexChange = decide (ys.length ≠ c * sl + ip) → ys.length ≤ c * sl + ip →
    Agree sl o a c (c * sl + ip + k) ys ps.ipOut (moveItems skip adv ⟨!o, (c : Int)⟩ k ip ps)
      (Spec.pass (Spec.skipping skip adv) ps.st (c * sl + ip) ys.length
        (((a.items sl).drop (c * sl + ip)).take k))
      (Spec.lastMoved skip adv ps.st (c * sl + ip) ys.length
        (((a.items sl).drop (c * sl + ip)).take k)) := by
  induction k with
  | zero =>
    intro ip ps ys h _ _ hic hle
    simp only [List.take_zero, Spec.pass, moveItems, Agree, List.append_nil, Nat.add_zero]
    exact ⟨ps, rfl, h, rfl, hic, hle, by simp [Spec.lastMoved, LastOk]⟩
  | succ k ih =>
    intro ip ps ys h hip hx hic hle
    have hx1 : c * sl + ip < (a.items sl).length := by omega
    rw [List.drop_eq_getElem_cons hx1, List.take_succ_cons]
    have hone := moveOne_ok (skip := skip) (adv := adv) h ha ip (by omega) hx1 hic
    unfold moveItems
    simp only [Spec.pass]
    cases hadv : Spec.skipping skip adv ps.st ((c * sl + ip : Nat) : Int) (ys.length : Int)
        (decide (ys.length ≠ c * sl + ip)) ((a.items sl)[c * sl + ip]) with
    | error e =>
      rw [hadv] at hone
      simp only at hone
      rw [hone]
      simp [Agree, bind, Except.bind]
    | ok r =>
      obtain ⟨st', p', keep⟩ := r
      rw [hadv] at hone
      obtain ⟨ps1, e1, h1, hst, hic1, hsk, hnsk⟩ := hone
      rw [e1]
      simp only [bind, Except.bind]
      have hic2 : ps1.indexChange =
          decide ((if keep then ys ++ [p'] else ys).length ≠ c * sl + (ip + 1)) := by
        rw [hic1]
        cases keep with
        | true =>
          simp only [if_true, List.length_append, List.length_cons, List.length_nil, hic]
          apply decide_eq_decide.2
          omega
        | false =>
          simp only [Bool.false_eq_true, if_false]
          symm
          rw [decide_eq_true_iff]
          omega
      have hle2 : (if keep then ys ++ [p'] else ys).length ≤ c * sl + (ip + 1) := by
        cases keep <;> simp <;> omega
      have := ih (ip + 1) ps1 _ h1 (by omega) (by omega) hic2 hle2
      rw [hst, show c * sl + (ip + 1) = c * sl + ip + 1 by omega] at this
      rw [show c * sl + ip + (k + 1) = c * sl + ip + 1 + k by omega]
      -- the flag of this stretch
      have hlast : ∀ (o' : Nat) (tl : List α) (ps' : CPass σ α),
          LastOk sl (Spec.lastMoved skip adv st' (c * sl + ip + 1) o' tl) ps1.ipOut ps' →
          o' = (if keep then ys.length + 1 else ys.length) →
          LastOk sl (Spec.lastMoved skip adv ps.st (c * sl + ip) ys.length
            ((a.items sl)[c * sl + ip] :: tl)) ps.ipOut ps' := by
        intro o' tl ps' hl ho'
        simp only [Spec.lastMoved]
        by_cases hs : skip ((a.items sl)[c * sl + ip]) = true
        · rw [if_pos hs]
          have hh := hadv
          simp only [Spec.skipping, hs, if_true, Except.ok.injEq, Prod.mk.injEq] at hh
          obtain ⟨h3, -, h5⟩ := hh
          subst h3
          subst h5
          simp only [Bool.false_eq_true, if_false] at ho'
          subst ho'
          rw [hsk hs] at hl
          exact hl
        · rw [if_neg hs]
          have hh := hadv
          simp only [Spec.skipping, hs, Bool.false_eq_true, if_false] at hh
          rw [hh]
          simp only
          obtain ⟨n1, n2⟩ := hnsk (by simpa using hs)
          rw [← ho']
          cases hlm : Spec.lastMoved skip adv st' (c * sl + ip + 1) o' tl with
          | some b => rw [hlm] at hl; obtain ⟨l1, l2, l3⟩ := hl; exact ⟨l1, l2, by simp⟩
          | none =>
            rw [hlm] at hl
            have := hl.2.2 rfl
            simp only
            refine ⟨fun h3 => ?_, fun h3 => ?_, by simp⟩
            · simp only [Option.some.injEq] at h3; rw [this]; exact n1 h3
            · simp only [Option.some.injEq] at h3; rw [this]; exact n2 h3
      cases keep with
      | true =>
        simp only [if_true, List.length_append, List.length_cons, List.length_nil,
          Nat.zero_add] at this hlast ⊢
        unfold Agree at this ⊢
        cases hsp : Spec.pass (Spec.skipping skip adv) st' (c * sl + ip + 1) (ys.length + 1)
            (((a.items sl).drop (c * sl + ip + 1)).take k) with
        | error e => rw [hsp] at this; exact this
        | ok q =>
          obtain ⟨st'', zs⟩ := q
          rw [hsp] at this
          obtain ⟨ps', h3, h4, h5, h6, h7, h8⟩ := this
          refine ⟨ps', h3, by simpa using h4, h5, ?_, ?_, hlast _ _ _ h8 rfl⟩
          · rw [h6]
            apply decide_eq_decide.2
            simp only [List.length_append, List.length_cons, List.length_nil]
            omega
          · simp only [List.length_append, List.length_cons, List.length_nil] at h7 ⊢
            omega
      | false =>
        simp only [Bool.false_eq_true, if_false] at this hlast ⊢
        unfold Agree at this ⊢
        cases hsp : Spec.pass (Spec.skipping skip adv) st' (c * sl + ip + 1) ys.length
            (((a.items sl).drop (c * sl + ip + 1)).take k) with
        | error e => rw [hsp] at this; exact this
        | ok q =>
          rw [hsp] at this
          obtain ⟨ps', h3, h4, h5, h6, h7, h8⟩ := this
          exact ⟨ps', h3, h4, h5, h6, h7, hlast _ _ _ h8 rfl⟩

/-- Advancing to the next "in" segment. -/
theorem nextIn_eq {sl : Nat} {o : Bool} {a : SA α} {c : Nat} {ps : CPass σ α} {ys : List α}
    (h : Mover.PInv sl o a c ps.py ys) :
    ∃ s', ps.s.getNextSegment .In = (s',
        if a.fnf < (c : Int) + 1 then (0, none)
        else if a.fnf = (c : Int) + 1 then
          if a.fao = 0 then (0, none) else (a.fao, some ⟨!o, (c : Int) + 1⟩)
        else ((sl : Int), some ⟨!o, (c : Int) + 1⟩)) ∧
      Mover.PInv sl o a (c + 1) ({ ps with s := s' } : CPass σ α).py ys := by
  obtain ⟨t, e, h1⟩ := Mover.nextIn_eq h
  have hpos : 0 < ps.s.sl := h.inv.out.pos
  rw [show ps.py.s = ps.s.py from rfl, getNext_py hpos] at e
  refine ⟨(ps.s.getNextSegment .In).1, ?_, ?_⟩
  · have h2 := congrArg Prod.snd e
    simp only at h2
    rw [← h2]
  · have := congrArg Prod.fst e
    simp only at this
    subst this
    exact h1

theorem moveSegs_ok {skip : α → Bool} {adv : Adv σ α} {sl : Nat} {o : Bool} {a : SA α}
    (ha : a.WF sl) (k : Nat) :
    ∀ (c fuel : Nat) (ps : CPass σ α) (ys : List α), Mover.PInv sl o a c ps.py ys →
    (c : Int) + k = a.fnf → k < fuel → (a.fnf = (c : Int) → a.fao ≠ 0) →
    ps.indexChange = decide (ys.length ≠ c * sl) → ys.length ≤ c * sl →
    (match Spec.pass (Spec.skipping skip adv) ps.st (c * sl) ys.length
        ((a.items sl).drop (c * sl)) with
      | .error e => moveSegs skip adv fuel (if a.fnf = (c : Int) then a.fao else sl)
          (some ⟨!o, (c : Int)⟩) ps = .error e
      | .ok (st', zs) => ∃ ps' c', moveSegs skip adv fuel
          (if a.fnf = (c : Int) then a.fao else sl) (some ⟨!o, (c : Int)⟩) ps = .ok ps' ∧
          Mover.PInv sl o a c' ps'.py (ys ++ zs) ∧ ps'.st = st' ∧
          LastOk sl (Spec.lastMoved skip adv ps.st (c * sl) ys.length
            ((a.items sl).drop (c * sl))) ps.ipOut ps') := by
  obtain ⟨f, o', hf, ho', hfl, hol, hfl2, hle⟩ := ha.total
  have hlen : (a.items sl).length = f * sl + o' := by
    have := ha.items_length
    rw [hf, ho'] at this
    exact_mod_cast this
  induction k with
  | zero =>
    intro c fuel ps ys h hc hfuel hne hic hyl
    have hcf : c = f := by omega
    subst hcf
    obtain ⟨fuel, rfl⟩ : ∃ m, fuel = m + 1 := ⟨fuel - 1, by omega⟩
    rw [if_pos hf]
    have hitems := moveItems_ok (skip := skip) (adv := adv) ha o' 0 ps ys h (by omega) (by omega)
      (by simpa using hic) (by simpa using hyl)
    rw [Nat.add_zero] at hitems
    rw [List.take_of_length_le (by rw [List.length_drop]; omega)] at hitems
    unfold moveSegs
    rw [ho']
    simp only [Int.toNat_natCast]
    unfold Agree at hitems
    cases hsp : Spec.pass (Spec.skipping skip adv) ps.st (c * sl) ys.length
        ((a.items sl).drop (c * sl)) with
    | error e =>
      rw [hsp] at hitems
      simp only [] at hitems
      rw [hitems]
      rfl
    | ok q =>
      obtain ⟨st', zs⟩ := q
      rw [hsp] at hitems
      simp only [] at hitems
      obtain ⟨ps', h3, h4, h5, h6, h7, h9⟩ := hitems
      obtain ⟨s', hn, h8⟩ := nextIn_eq h4
      refine ⟨{ ps' with s := s' }, c + 1, ?_, h8, h5, h9⟩
      rw [h3]
      simp only [bind, Except.bind]
      rw [hn, if_pos (by omega)]
      simp only [moveSegs]
  | succ k ih =>
    intro c fuel ps ys h hc hfuel hne hic hyl
    obtain ⟨fuel, rfl⟩ : ∃ m, fuel = m + 1 := ⟨fuel - 1, by omega⟩
    have hcf : c + 1 ≤ f := by omega
    rw [if_neg (by omega)]
    have hmul : (c + 1) * sl ≤ f * sl := Nat.mul_le_mul_right _ hcf
    rw [Nat.succ_mul] at hmul
    have hitems := moveItems_ok (skip := skip) (adv := adv) ha sl 0 ps ys h (by omega) (by omega)
      (by simpa using hic) (by simpa using hyl)
    rw [Nat.add_zero] at hitems
    unfold moveSegs
    simp only [Int.toNat_natCast]
    unfold Agree at hitems
    have hsplit : (a.items sl).drop (c * sl) =
        ((a.items sl).drop (c * sl)).take sl ++ (a.items sl).drop ((c + 1) * sl) := by
      rw [Nat.succ_mul, ← List.drop_drop, List.take_append_drop]
    rw [hsplit, Mover.pass_append]
    have hl1 : (((a.items sl).drop (c * sl)).take sl).length = sl := by
      rw [List.length_take, List.length_drop]; omega
    rw [hl1]
    cases hsp : Spec.pass (Spec.skipping skip adv) ps.st (c * sl) ys.length
        (((a.items sl).drop (c * sl)).take sl) with
    | error e =>
      rw [hsp] at hitems
      simp only [] at hitems ⊢
      rw [hitems]
      rfl
    | ok q =>
      obtain ⟨st', zs⟩ := q
      rw [hsp] at hitems
      simp only [] at hitems ⊢
      obtain ⟨ps', h3, h4, h5, h6, h7, h9⟩ := hitems
      have hlapp := lastMoved_append (xs' := (a.items sl).drop ((c + 1) * sl)) _ _ _ _ _ _ hsp
      rw [hl1] at hlapp
      rw [hlapp]
      subst h5
      obtain ⟨s', hn, h8⟩ := nextIn_eq h4
      rw [h3]
      simp only [bind, Except.bind]
      rw [hn, if_neg (by omega)]
      by_cases hlast : a.fnf = (c : Int) + 1 ∧ a.fao = 0
      · rw [if_pos hlast.1, if_pos hlast.2]
        have hempty : (a.items sl).drop ((c + 1) * sl) = [] := by
          apply List.drop_eq_nil_of_le
          rw [hlen]
          have : f = c + 1 := by omega
          rw [this]
          omega
        rw [hempty]
        simp only [Spec.pass, moveSegs, List.append_nil, Spec.lastMoved]
        exact ⟨{ ps' with s := s' }, c + 1, rfl, h8, rfl, h9⟩
      · have harg : (if a.fnf = (c : Int) + 1 then
            if a.fao = 0 then ((0 : Int), (none : Option View)) else (a.fao, some ⟨!o, (c : Int) + 1⟩)
            else ((sl : Int), some ⟨!o, (c : Int) + 1⟩)) =
            ((if a.fnf = ((c + 1 : Nat) : Int) then a.fao else (sl : Int)),
              some ⟨!o, ((c + 1 : Nat) : Int)⟩) := by
          by_cases h9 : a.fnf = (c : Int) + 1
          · rw [if_pos h9, if_neg (fun h10 => hlast ⟨h9, h10⟩), if_pos (by push_cast; exact h9)]
            rfl
          · rw [if_neg h9, if_neg (by push_cast; exact h9)]
            rfl
        rw [harg]
        simp only []
        have := ih (c + 1) fuel { ps' with s := s' } (ys ++ zs) h8 (by push_cast; omega) (by omega)
          (fun h10 h11 => hlast ⟨by rw [h10]; push_cast; rfl, h11⟩)
          (by simp only []; rw [h6, Nat.succ_mul]) (by rw [Nat.succ_mul]; exact h7)
        simp only [] at this
        rw [show c * sl + sl = (c + 1) * sl by rw [Nat.succ_mul]]
        rw [List.length_append] at this
        cases hsp2 : Spec.pass (Spec.skipping skip adv) ps'.st ((c + 1) * sl)
            (ys.length + zs.length) ((a.items sl).drop ((c + 1) * sl)) with
        | error e => rw [hsp2] at this; exact this
        | ok q =>
          obtain ⟨st'', ws⟩ := q
          rw [hsp2] at this
          simp only [List.append_assoc] at this ⊢
          obtain ⟨ps2, c2, k1, k2, k3, k4⟩ := this
          refine ⟨ps2, c2, k1, k2, k3, ?_⟩
          cases hlf : Spec.lastMoved skip adv ps'.st ((c + 1) * sl) (ys.length + zs.length)
              ((a.items sl).drop ((c + 1) * sl)) with
          | none =>
            rw [hlf] at k4
            simp only
            have h10 := k4.2.2 rfl
            exact ⟨fun h => by rw [h10]; exact h9.1 h, fun h => by rw [h10]; exact h9.2.1 h,
              fun h => by rw [h10]; exact h9.2.2 h⟩
          | some b => rw [hlf] at k4; exact ⟨k4.1, k4.2.1, by simp⟩

/-- The whole compiled pass on a non-empty container, up to the final `set_number_of_items`. -/
theorem cppPass_ok (skip : α → Bool) (adv : Adv σ α) {s : CSAP α} (h : s.py.Inv)
    (hne : s.py.contents ≠ []) (st : σ) :
    match Spec.pass (Spec.skipping skip adv) st 0 0 s.py.contents with
    | .error e => cppPass skip adv s st = .error e
    | .ok (st', ys) => ∃ (t : CSAP α) (q : Nat),
        cppPass skip adv s st = .ok (t.setNumberOfItems .Out (ys.length : Int), st') ∧
        t.py.Inv ∧ t.sl = s.sl ∧ t.outSel = s.inSel ∧ t.inSel = s.outSel ∧
        t.py.outA.cur = q ∧ t.py.outA.fnf = q ∧ t.py.outA.fao = 0 ∧ q * s.sl ≤ ys.length ∧
        (Spec.lastMoved skip adv st 0 0 s.py.contents = some true →
          q * s.sl < ys.length ∧ ys.length ≤ (q + 1) * s.sl) ∧
        (Spec.lastMoved skip adv st 0 0 s.py.contents = some false → ys.length < (q + 1) * s.sl) ∧
        (Spec.lastMoved skip adv st 0 0 s.py.contents = none → ys.length = q * s.sl) ∧
        ys.length ≤ t.py.outA.nseg * s.sl ∧
        t.py.outA.segs.flatten.take ys.length = ys ∧
        (∃ c, t.py.inA = { s.py.outA with cur := c }) := by
  obtain ⟨s1, e, h1, h2, h3, h4, h5, h6, h7⟩ := initInoutLoop_nonempty h hne
  have hpos := h.out.pos
  have hposs : 0 < s.sl := hpos
  rw [initInout_py hposs] at e
  have es : s.initInoutLoop.1.py = s1 := congrArg Prod.fst e
  have ep : s.initInoutLoop.2 = (firstCount s.sl s.py.outA, some (⟨s1.inSel, 0⟩, ⟨s1.outSel, 0⟩)) :=
    congrArg Prod.snd e
  have hsel1 : (!s1.outSel) = s1.inSel := h7.sel.symm
  have hp : Mover.PInv s.sl s1.outSel s.py.outA 0
      (⟨s.initInoutLoop.1, ⟨s1.outSel, 0⟩, 0, 0, false, st⟩ : CPass σ α).py [] := by
    unfold CPass.py
    simp only [es]
    refine ⟨h7, by simp [Synced, h6], h3, rfl, by simp only []; rw [h5]; rfl, by simp [h6],
      by simp [h6], by simp, by simp [h6], by simp, ?_⟩
    rw [if_neg (by simp only []; omega)]
    rfl
  obtain ⟨f, o', hf, ho', hfl, hol, hfl2, hle⟩ := h.out.total
  have hfao : s.py.outA.fnf = ((0 : Nat) : Int) → s.py.outA.fao ≠ 0 := by
    intro h8 h9
    exact hne ((contents_nil_iff h.out).2 ⟨by simpa using h8, h9⟩)
  have hnseg : (s.arr s.outSel).nseg = s.py.outA.nseg := by
    rw [show s.py.outA = (s.arr s.outSel).py from CSAP.py_arr s s.outSel]; rfl
  have key := moveSegs_ok (skip := skip) (adv := adv) h.out f 0 ((s.arr s.outSel).nseg + 1) _ [] hp
    (by rw [hf]; simp) (by rw [hnseg, h.out.nseg]; omega) hfao (by simp) (by simp)
  simp only [Nat.zero_mul, List.drop_zero, List.length_nil, List.nil_append] at key
  rw [show s.py.outA.items s.py.sl = s.py.contents from rfl] at key
  have hstart : (if s.py.outA.fnf = ((0 : Nat) : Int) then s.py.outA.fao else (s.py.sl : Int)) =
      firstCount s.sl s.py.outA := rfl
  rw [hstart, hsel1] at key
  unfold cppPass
  have einit : s.initInoutLoop = (s.initInoutLoop.1, (firstCount s.sl s.py.outA,
      some (⟨s1.inSel, 0⟩, ⟨s1.outSel, 0⟩))) := Prod.ext rfl ep
  rw [einit]
  simp only []
  cases hsp : Spec.pass (Spec.skipping skip adv) st 0 0 s.py.contents with
  | error e' =>
    rw [hsp] at key
    simp only [] at key ⊢
    rw [show ((0 : Nat) : Int) = 0 from rfl] at key
    rw [key]
    rfl
  | ok q =>
    obtain ⟨st', ys⟩ := q
    rw [hsp] at key
    simp only [] at key ⊢
    obtain ⟨ps', c', h8, h9, h10, h12⟩ := key
    rw [show ((0 : Nat) : Int) = 0 from rfl] at h8
    rw [h8]
    simp only [bind, Except.bind, pure, Except.pure]
    obtain ⟨hi, hs, hsl, ho, hin, hfao', hv, hip, hlen, hwr, hcnt⟩ := h9
    change ps'.s.py.Inv at hi
    change ps'.s.py.Synced at hs
    change ps'.s.sl = s.sl at hsl
    change ps'.s.outSel = s1.outSel at ho
    change ps'.s.py.inA = _ at hin
    change ps'.s.py.outA.fao = 0 at hfao'
    change ps'.ipOut ≤ s.sl at hip
    change (ys.length : Int) = ps'.s.py.outA.fnf * s.sl + ps'.ipOut at hlen
    change ps'.s.py.outA.segs.flatten.take ys.length = ys at hwr
    change ps'.count = if ps'.ipOut = s.sl then ys.length else ys.length - ps'.ipOut at hcnt
    obtain ⟨g, o'', hg, ho'', hgl, _, hgl2, hgle⟩ := hi.out.total
    have hL : ys.length = g * s.sl + ps'.ipOut := by
      rw [hg] at hlen; exact_mod_cast hlen
    have hmul : (g + 1) * s.sl ≤ ps'.s.py.outA.segs.length * s.sl := Nat.mul_le_mul_right _ hgl
    refine ⟨ps'.s, g, ?_, hi, hsl, ?_, ?_, ?_, hg, hfao', by omega, ?_, ?_, ?_, ?_, hwr, ⟨_, hin⟩⟩
    · have hc : (if ps'.ipOut ≠ ps'.s.sl then ps'.count + ps'.ipOut else ps'.count) = ys.length := by
        rw [hsl, hcnt]
        by_cases h11 : ps'.ipOut = s.sl
        · rw [if_neg (by simpa using h11), if_pos h11]
        · rw [if_pos h11, if_neg h11]; omega
      rw [h10, hc]
    · rw [ho, h2]; rfl
    · have := hi.sel
      change ps'.s.inSel = !ps'.s.outSel at this
      rw [this, ho, h2]
      have := h.sel
      change s.inSel = !s.outSel at this
      change (!s.inSel) = s.outSel
      rw [this]; simp
    · have := hs; unfold Synced at this; rw [this, hg]
    · intro h13
      have := h12.1 h13
      rw [Nat.succ_mul]
      omega
    · intro h13
      have : ps'.ipOut < s.sl := h12.2.1 h13
      rw [Nat.succ_mul]
      omega
    · intro h13
      have : ps'.ipOut = 0 := h12.2.2 h13
      omega
    · rw [hi.out.nseg]
      rw [Nat.succ_mul] at hmul
      omega

end CppMover
end Dt

namespace Dt
namespace CppMover
open SAP
variable {σ α : Type}

theorem lastMoved_none {skip : α → Bool} {adv : Adv σ α} {xs : List α} :
    ∀ {st : σ} {i o : Nat} {st' : σ} {ys : List α},
    Spec.pass (Spec.skipping skip adv) st i o xs = .ok (st', ys) →
    Spec.lastMoved skip adv st i o xs = none → ys = [] := by
  induction xs with
  | nil =>
    intro st i o st' ys h _
    simp only [Spec.pass, Except.ok.injEq, Prod.mk.injEq] at h
    exact h.2.symm
  | cons x xs ih =>
    intro st i o st' ys h1 h2
    simp only [Spec.pass, Spec.lastMoved] at h1 h2
    by_cases hs : skip x = true
    · simp only [Spec.skipping, hs, if_true] at h1 h2
      exact ih h1 h2
    · exfalso
      simp only [Spec.skipping, hs, Bool.false_eq_true, if_false] at h1 h2
      cases hadv : adv st i o (decide (o ≠ i)) x with
      | error e => rw [hadv] at h1; cases h1
      | ok q =>
        rw [hadv] at h2
        simp only [] at h2
        cases hl : Spec.lastMoved skip adv q.1 (i + 1) (if q.2.2 = true then o + 1 else o) xs with
        | none => rw [hl] at h2; cases h2
        | some b => rw [hl] at h2; cases h2

theorem pass_length {adv : Adv σ α} {xs : List α} : ∀ {st : σ} {i o : Nat} {st' : σ} {ys : List α},
    Spec.pass adv st i o xs = .ok (st', ys) → ys.length ≤ xs.length := by
  induction xs with
  | nil =>
    intro st i o st' ys h
    simp only [Spec.pass, Except.ok.injEq, Prod.mk.injEq] at h
    rw [← h.2]
  | cons x xs ih =>
    intro st i o st' ys h
    simp only [Spec.pass] at h
    split at h
    · cases h
    · rename_i st1 p' _
      cases hp : Spec.pass adv st1 (i + 1) (o + 1) xs with
      | error e => rw [hp] at h; cases h
      | ok r =>
        rw [hp] at h
        simp only [Except.ok.injEq, Prod.mk.injEq] at h
        have := ih hp
        rw [← h.2]
        simp only [List.length_cons]
        omega
    · have := ih h
      simp only [List.length_cons]
      omega

theorem setNumber_py {s : CSAP α} (hsl : 0 < s.sl) {n : Nat} (h1 : 1 ≤ n) (h2 : n < 4294967296) :
    (s.setNumberOfItems .Out n).py = s.py.setNumberOfItems .Out n := by
  have := same_exec hsl (m := (.setNumber .Out n : Method α)) ⟨by omega, by omega⟩
  simp only [pyExec, cppExec, pure, Except.pure, Same, and_true] at this
  exact this.symm

/-- In the compiled container the number 0 is represented by offset 0 of segment 0, unless the
segment length is 1. -/
theorem setNumber_zero_py {s : CSAP α} (hsl : 2 ≤ s.sl) :
    (s.setNumberOfItems .Out 0).py =
      s.py.setArr s.outSel { s.py.outA with fnf := 0, fao := 0 } := by
  unfold CSAP.setNumberOfItems
  have e1 : Int.tdiv ((0 : Int) - 1) s.sl = 0 := by
    rw [show (0 : Int) - 1 = -1 by omega, Int.neg_tdiv, Int.tdiv_eq_zero_of_lt (by omega) (by omega)]
    rfl
  have e2 : Int.tmod ((0 : Int) - 1) s.sl = -1 := by
    rw [show (0 : Int) - 1 = -1 by omega, Int.neg_tmod, Int.tmod_eq_of_lt (by omega) (by omega)]
  simp only [e1, e2]
  rw [CSAP.py_setArr]
  rw [show s.py.outA = (s.arr s.outSel).py from CSAP.py_arr s s.outSel]
  rfl

/-- The state after a compiled pass. -/
structure Post (s s' : CSAP α) (ys : List α) (lf : Option Bool) : Prop where
  sl : s'.sl = s.sl
  inv : s'.py.Inv
  contents : s'.py.contents = ys
  inSel : s'.inSel = s.outSel
  outSel : s'.outSel = s.inSel
  inSegs : s'.py.inA.segs = s.py.outA.segs
  sync : s'.py.Synced ↔ ¬ (ys ≠ [] ∧ ys.length % s.sl = 0 ∧ lf = some false)
  full : s'.py.outA.fao = s.sl ↔ ys ≠ [] ∧ ys.length % s.sl = 0
  ahead : s'.py.outA.fnf ≤ s'.py.outA.cur

theorem cppPass_post (skip : α → Bool) (adv : Adv σ α) {s : CSAP α} (h : s.py.Inv)
    (hne : s.py.contents ≠ []) (st : σ) (hbig : s.py.contents.length < 4294967296) :
    match Spec.pass (Spec.skipping skip adv) st 0 0 s.py.contents with
    | .error e => cppPass skip adv s st = .error e
    | .ok (st', ys) => ∃ s', cppPass skip adv s st = .ok (s', st') ∧
        (ys ≠ [] ∨ 2 ≤ s.sl → Post s s' ys (Spec.lastMoved skip adv st 0 0 s.py.contents)) := by
  have key := cppPass_ok skip adv h hne st
  cases hp : Spec.pass (Spec.skipping skip adv) st 0 0 s.py.contents with
  | error e => rw [hp] at key; exact key
  | ok r =>
    obtain ⟨st', ys⟩ := r
    rw [hp] at key
    simp only [] at key ⊢
    obtain ⟨t, q, e, hi, hsl, hos, his, hcur, hfnf, hfao, hq1, hlt, hlf, hln, hcap, htake, c, hin⟩ :=
      key
    have hpos : 0 < t.sl := hi.out.pos
    have hpos' : 0 < s.sl := by rw [← hsl]; exact hpos
    have hsl' : t.py.sl = s.sl := hsl
    refine ⟨t.setNumberOfItems .Out ys.length, e, ?_⟩
    have hcap' : ys.length ≤ t.py.outA.nseg * t.py.sl := by rw [hsl']; exact hcap
    have hlen := pass_length hp
    intro hcase
    have hfl : ∀ b : Bool, (t.setNumberOfItems .Out (ys.length : Int)).inSel = t.inSel ∧
        (t.setNumberOfItems .Out (ys.length : Int)).outSel = t.outSel ∧
        (t.setNumberOfItems .Out (ys.length : Int)).sl = t.sl := by
      intro _
      unfold CSAP.setNumberOfItems
      dsimp only
      cases t.sel .Out <;> exact ⟨rfl, rfl, rfl⟩
    obtain ⟨f1, f2, f3⟩ := hfl true
    by_cases hys : ys = []
    · subst hys
      have h2 : 2 ≤ s.sl := by
        rcases hcase with h | h
        · exact absurd rfl h
        · exact h
      have ez := setNumber_zero_py (s := t) (by rw [hsl]; exact h2)
      simp only [List.length_nil, Nat.cast_zero] at ez f1 f2 f3 ⊢
      have hq0 : q = 0 := by
        simp only [List.length_nil, Nat.le_zero_eq, Nat.mul_eq_zero] at hq1
        omega
      have hwf : ({ t.py.outA with fnf := 0, fao := 0 } : SA α).WF t.py.sl := by
        have := hi.out.fnfLt
        have := hi.out.fnf0
        exact ⟨hi.out.pos, hi.out.nseg, hi.out.uni, by simp, by simp only []; omega, by simp,
          by simp⟩
      have hinv := setArr_inv hi t.py.outSel hwf
      have hosel : t.py.outSel = t.outSel := rfl
      rw [hosel] at hinv
      have houtA : (t.py.setArr t.outSel { t.py.outA with fnf := 0, fao := 0 }).outA =
          { t.py.outA with fnf := 0, fao := 0 } := outA_setArr_out _ _
      refine ⟨by rw [f3, hsl], by rw [ez]; exact hinv, ?_, by rw [f1, his], by rw [f2, hos], ?_, ?_, ?_,
        by rw [ez, houtA]; simp only; rw [hcur]; omega⟩
      · rw [ez]
        apply (contents_nil_iff hinv.out).2
        rw [houtA]
        exact ⟨rfl, rfl⟩
      · rw [ez]
        have : (t.py.setArr t.outSel { t.py.outA with fnf := 0, fao := 0 }).inA = t.py.inA := by
          have hsel := hi.sel
          unfold inA
          change (t.py.setArr t.py.outSel _).arr _ = _
          rw [setArr_inSel, arr_setArr_ne]
          rw [hsel]; cases t.py.outSel <;> simp
        rw [this, hin]
      · rw [ez]
        simp only [ne_eq, not_true_eq_false, false_and, not_false_eq_true, iff_true]
        unfold Synced
        rw [houtA]
        simp only
        rw [hcur, hq0]; rfl
      · rw [ez, houtA]
        simp only [ne_eq, not_true_eq_false, false_and, iff_false]
        omega
    · have hL : 0 < ys.length := List.length_pos_iff.2 hys
      have ez := setNumber_py (s := t) hpos (n := ys.length) hL (by omega)
      obtain ⟨m1, m2, m3, m4, m5, m6, m7, m8, m9, m10, m11, m12, m13⟩ :=
        setNumberOfItems_ok hi ys.length hL hcap'
      rw [hsl'] at m5 m6
      refine ⟨by rw [f3, hsl], by rw [ez]; exact m1, by rw [ez, m2, htake], by rw [f1, his],
        by rw [f2, hos], by rw [ez, m13, hin], ?_, ?_, ?_⟩
      rotate_left 2
      · rw [ez, m4, m5, hcur]
        suffices (ys.length - 1) / s.sl ≤ q by exact_mod_cast this
        have h7 : ys.length ≤ (q + 1) * s.sl := by
          cases hl : Spec.lastMoved skip adv st 0 0 s.py.contents with
          | none => exact absurd (lastMoved_none hp hl) hys
          | some b =>
            cases b with
            | true => exact (hlt hl).2
            | false => exact (hlf hl).le
        exact Nat.le_of_lt_succ ((Nat.div_lt_iff_lt_mul hpos').2 (by rw [Nat.succ_eq_add_one]; omega))
      · rw [ez]
        unfold Synced
        rw [m4, m5, hcur]
        generalize hn : ys.length = n at *
        constructor
        · rintro hqe ⟨-, hm, hff⟩
          have h2 := hlf hff
          have hqe' : q = (n - 1) / s.sl := by exact_mod_cast hqe
          obtain ⟨d, hd⟩ := Nat.dvd_of_mod_eq_zero hm
          have hd0 : 0 < d := by
            rcases Nat.eq_zero_or_pos d with h0 | h0
            · subst h0; omega
            · exact h0
          have : (n - 1) / s.sl = d - 1 := by
            rw [Nat.div_eq_iff hpos', hd]
            obtain ⟨d', rfl⟩ : ∃ d', d = d' + 1 := ⟨d - 1, by omega⟩
            simp only [Nat.add_sub_cancel, Nat.mul_succ]
            rw [Nat.mul_comm]
            omega
          rw [hqe', this, show d - 1 + 1 = d by omega, Nat.mul_comm] at h2
          omega
        · intro hnot
          suffices h3 : q = (n - 1) / s.sl by exact_mod_cast h3
          symm
          rw [Nat.div_eq_iff hpos']
          cases hl : Spec.lastMoved skip adv st 0 0 s.py.contents with
          | none => exact absurd (lastMoved_none hp hl) hys
          | some b =>
            rw [hl] at hnot hlt hlf
            cases b with
            | true =>
              have := hlt rfl
              rw [Nat.succ_mul] at this
              omega
            | false =>
              have h4 := hlf rfl
              have h5 : n ≠ q * s.sl := by
                intro h6
                apply hnot
                exact ⟨hys, by rw [h6]; exact Nat.mul_mod_left _ _, rfl⟩
              rw [Nat.succ_mul] at h4
              omega
      · rw [ez, m6]
        generalize ys.length = n at *
        have hd := Nat.div_add_mod (n - 1) s.sl
        have hml := Nat.mod_lt (n - 1) hpos'
        generalize (n - 1) / s.sl = u at *
        generalize (n - 1) % s.sl = v at *
        rw [show n = s.sl * u + (v + 1) by omega, Nat.mul_add_mod]
        constructor
        · intro h1
          have : v + 1 = s.sl := by omega
          exact ⟨hys, by rw [this, Nat.mod_self]⟩
        · rintro ⟨-, h1⟩
          by_cases h2 : v + 1 < s.sl
          · rw [Nat.mod_eq_of_lt h2] at h1; omega
          · omega

end CppMover
end Dt
