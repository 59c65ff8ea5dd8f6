import Verif.Model.Mover
import Verif.Spec.Pass
import Verif.Lemmas.SAPReach

/-! # The mover loop refines the pass on a plain list -/

namespace Dt
namespace Mover
open SAP
variable {σ α : Type}

/-- Loop invariant of a pass: `c` "in" segments have been handed out before the
current one, `ys` is what has been written to the "out" array. `a` is the
array being read. -/
structure PInv (sl : Nat) (o : Bool) (a : SA α) (c : Nat) (ps : Pass σ α) (ys : List α) :
    Prop where
  inv : ps.s.Inv
  sync : ps.s.Synced
  sleq : ps.s.sl = sl
  osel : ps.s.outSel = o
  inn : ps.s.inA = { a with cur := c }
  fao : ps.s.outA.fao = 0
  vout : ps.vout = ⟨o, ps.s.outA.fnf⟩
  ip : ps.ipOut ≤ sl
  len : (ys.length : Int) = ps.s.outA.fnf * sl + ps.ipOut
  wr : ps.s.outA.segs.flatten.take ys.length = ys
  cnt : ps.count = if ps.ipOut = sl then ys.length else ys.length - ps.ipOut

/-- The invariant with room for one more item. -/
theorem nextOut_ok {sl : Nat} {o : Bool} {a : SA α} {c : Nat} {ps : Pass σ α} {ys : List α}
    (h : PInv sl o a c ps ys) :
    ∃ ps', nextOut ps = .ok ps' ∧ PInv sl o a c ps' ys ∧ ps'.ipOut < sl ∧ ps'.st = ps.st ∧
      ps'.indexChange = ps.indexChange := by
  have hpos : 0 < sl := by have := h.inv.out.pos; rw [h.sleq] at this; exact this
  unfold nextOut
  by_cases hf : ps.ipOut = ps.s.sl
  · rw [if_pos hf]
    obtain ⟨s', e, hi, hs, hfnf, hfao, hsl, hj, hin, his, hos, ⟨t, hsegs⟩, hn⟩ :=
      getNextOutSegment_ok h.inv h.sync
    have hf' : ps.ipOut = sl := by rw [hf, h.sleq]
    refine ⟨{ ps with s := s', vout := ⟨ps.s.outSel, ps.s.outA.fnf + 1⟩, ipOut := 0 }, ?_, ?_, hpos, rfl, rfl⟩
    · rw [e]; rfl
    · refine ⟨hi, hs, by simp only []; rw [hsl, h.sleq], by simp only []; rw [hos, h.osel],
        by simp only []; rw [hin, h.inn], hfao, by simp only []; rw [hfnf, h.osel], by simp, ?_, ?_, ?_⟩
      · simp only []
        rw [h.len, hfnf, hf', Int.add_mul]
        simp
      · simp only []
        have hle : ys.length ≤ ps.s.outA.segs.flatten.length := by
          have := h.wr
          have h2 := congrArg List.length this
          rw [List.length_take] at h2
          omega
        rw [hsegs, List.flatten_append, List.take_append_of_le_length hle, h.wr]
      · simp only []
        rw [h.cnt, if_pos hf', if_neg (by omega)]
        simp
  · rw [if_neg hf]
    refine ⟨ps, rfl, h, ?_, rfl, rfl⟩
    have := h.ip
    have := h.sleq
    omega

/-- Writing to the free slot and accepting the item. -/
theorem write_ok {sl : Nat} {o : Bool} {a : SA α} {c : Nat} {ps : Pass σ α} {ys : List α}
    (h : PInv sl o a c ps ys) (hlt : ps.ipOut < sl) (p : α) (st : σ) :
    ∃ s', ps.s.viewSet ps.vout ps.ipOut p = .ok s' ∧
      PInv sl o a c (countFull { ps with s := s', st := st, ipOut := ps.ipOut + 1 }) (ys ++ [p]) ∧
      (∀ b, PInv sl o a c (countFull { ps with s := s', st := st, indexChange := b }) ys) := by
  obtain ⟨hi, hs, hsl, ho, hin, hfao, hv, hip, hlen, hwr, hcnt⟩ := h
  obtain ⟨f, o', hf, ho', hfl, hol, hfl2, hle⟩ := hi.out.total
  have hpos : 0 < sl := by omega
  have hL : ys.length = f * sl + ps.ipOut := by rw [hf] at hlen; exact_mod_cast hlen
  obtain ⟨segs', e, uni', len', flat'⟩ := store_eq hi.out.uni f ps.ipOut hfl (by omega) p
  have hvs : ps.s.viewSet ps.vout ps.ipOut p =
      .ok (ps.s.setArr ps.s.outSel { ps.s.outA with segs := segs' }) := by
    unfold viewSet
    rw [hv]
    dsimp only
    rw [← ho]
    rw [show ps.s.arr ps.s.outSel = ps.s.outA from rfl]
    rw [← hf] at e
    rw [e]
    rfl
  rw [hsl] at flat'
  have hbnd : f * sl + ps.ipOut < ps.s.outA.segs.flatten.length := by
    rw [hfl2, hsl]
    have : (f + 1) * sl ≤ ps.s.outA.segs.length * sl := Nat.mul_le_mul_right _ hfl
    rw [Nat.succ_mul] at this
    omega
  have wf' : ({ ps.s.outA with segs := segs' } : SA α).WF ps.s.sl :=
    ⟨hi.out.pos, by simp only []; rw [len', hi.out.nseg], uni', hi.out.fnf0, hi.out.fnfLt,
      hi.out.fao0, hi.out.faoLe⟩
  have hin' : ∀ b : SA α, (ps.s.setArr ps.s.outSel b).inA = ps.s.inA := by
    intro b; simp [inA, hi.sel]
  refine ⟨_, hvs, ?_, ?_⟩
  · have hw : segs'.flatten.take (f * sl + ps.ipOut + 1) = ys ++ [p] := by
      rw [flat', List.take_add_one, List.take_set, List.getElem?_set_self (by omega)]
      rw [← hL, hwr]
      simp
      rw [List.set_eq_of_length_le (by omega)]
    unfold countFull
    by_cases hfull : ps.ipOut + 1 = sl
    · rw [if_pos (by simp only [setArr_sl]; omega)]
      refine ⟨setArr_inv hi _ wf', by simpa [Synced] using hs, by simpa using hsl, by simpa using ho,
        by simp only [hin']; exact hin, by simpa using hfao, by simpa using hv, by simp only []; omega, ?_,
        ?_, ?_⟩
      · simp only [outA_setArr_out, List.length_append, List.length_cons, List.length_nil]
        push_cast; omega
      · simp only [outA_setArr_out, List.length_append, List.length_cons, List.length_nil]
        rw [hL]; exact hw
      · simp only [setArr_sl, List.length_append, List.length_cons, List.length_nil]
        rw [if_pos hfull, hcnt, if_neg (by omega)]
        omega
    · rw [if_neg (by simp only [setArr_sl]; omega)]
      refine ⟨setArr_inv hi _ wf', by simpa [Synced] using hs, by simpa using hsl, by simpa using ho,
        by simp only [hin']; exact hin, by simpa using hfao, by simpa using hv, by simp only []; omega, ?_,
        ?_, ?_⟩
      · simp only [outA_setArr_out, List.length_append, List.length_cons, List.length_nil]
        push_cast; omega
      · simp only [outA_setArr_out, List.length_append, List.length_cons, List.length_nil]
        rw [hL]; exact hw
      · simp only [List.length_append, List.length_cons, List.length_nil]
        rw [if_neg hfull, hcnt, if_neg (by omega)]
        omega
  · intro b
    have hw : segs'.flatten.take ys.length = ys := by
      rw [flat', List.take_set, hwr, List.set_eq_of_length_le (by omega)]
    unfold countFull
    rw [if_neg (by simp only [setArr_sl]; omega)]
    exact ⟨setArr_inv hi _ wf', by simpa [Synced] using hs, by simpa using hsl, by simpa using ho,
        by simp only [hin']; exact hin, by simpa using hfao, by simpa using hv, hip,
        by simpa using hlen, by simpa using hw, hcnt⟩

/-- Reading an item of the "in" array. -/
theorem read_ok {sl : Nat} {o : Bool} {a : SA α} {c : Nat} {ps : Pass σ α} {ys : List α}
    (h : PInv sl o a c ps ys) (ha : a.WF sl) (ip : Nat) (hip : ip < sl)
    (hx : c * sl + ip < (a.items sl).length) :
    ps.s.viewGet ⟨!o, (c : Int)⟩ ip = .ok ((a.items sl)[c * sl + ip]) := by
  unfold viewGet
  have : ps.s.arr (!o) = { a with cur := c } := by
    rw [← h.inn, ← h.osel]; unfold inA; rw [h.inv.sel]
  dsimp only
  rw [this, load_eq (a := { a with cur := (c : Int) }) (sl := sl) ha.uni c ip hip]
  dsimp only
  unfold SA.items at hx ⊢
  rw [List.length_take] at hx
  rw [List.getElem?_eq_getElem (by omega)]
  simp [orIndexErr]

/-- How far the current "out" segment is filled depends on whether the last
particle was kept. -/
def LastOk (sl : Nat) (lf : Option Bool) (ps : Pass σ α) : Prop :=
  (lf = some true → 0 < ps.ipOut) ∧ (lf = some false → ps.ipOut < sl)

/-- Result of a stretch of the pass compared with the specification. -/
def Agree (sl : Nat) (o : Bool) (a : SA α) (c : Nat) (i : Nat) (ys : List α)
    (r : Except Err (Pass σ α)) (sp : Except Err (σ × List α)) (lf : Option Bool) : Prop :=
  match sp with
  | .error e => r = .error e
  | .ok (st', zs) => ∃ ps', r = .ok ps' ∧ PInv sl o a c ps' (ys ++ zs) ∧ ps'.st = st' ∧
      ps'.indexChange = decide ((ys ++ zs).length ≠ i) ∧ (ys ++ zs).length ≤ i ∧
      LastOk sl lf ps'

theorem lastFlag_none {adv : Adv σ α} {xs : List α} : ∀ {st : σ} {i o : Nat} {r : σ × List α},
    Spec.pass adv st i o xs = .ok r → Spec.lastFlag adv st i o xs = none → xs = [] := by
  induction xs with
  | nil => intros; rfl
  | cons x xs ih =>
    intro st i o r h1 h2
    exfalso
    simp only [Spec.pass, Spec.lastFlag] at h1 h2
    cases hadv : adv st i o (decide (o ≠ i)) x with
    | error e => rw [hadv] at h1; cases h1
    | ok q =>
      rw [hadv] at h2
      simp only [] at h2
      cases hl : Spec.lastFlag adv q.1 (i + 1) (if q.2.2 = true then o + 1 else o) xs with
      | none => rw [hl] at h2; cases h2
      | some b => rw [hl] at h2; cases h2

theorem lastFlag_append {adv : Adv σ α} {xs' : List α} (xs : List α) :
    ∀ (st : σ) (i o : Nat) (st' : σ) (ys : List α), Spec.pass adv st i o xs = .ok (st', ys) →
    Spec.lastFlag adv st i o (xs ++ xs') =
      match Spec.lastFlag adv st' (i + xs.length) (o + ys.length) xs' with
      | some b => some b
      | none => Spec.lastFlag adv st i o xs := by
  induction xs with
  | nil =>
    intro st i o st' ys h
    simp only [Spec.pass, Except.ok.injEq, Prod.mk.injEq] at h
    obtain ⟨rfl, rfl⟩ := h
    simp only [List.nil_append, List.length_nil, Nat.add_zero, Spec.lastFlag]
    cases Spec.lastFlag adv st i o xs' <;> rfl
  | cons x xs ih =>
    intro st i o st' ys h
    simp only [Spec.pass] at h
    simp only [List.cons_append, Spec.lastFlag]
    cases hadv : adv st i o (decide (o ≠ i)) x with
    | error e => rw [hadv] at h; cases h
    | ok q =>
      obtain ⟨st1, p', keep⟩ := q
      rw [hadv] at h
      simp only [List.length_cons]
      cases keep with
      | true =>
        simp only [] at h
        cases hp : Spec.pass adv st1 (i + 1) (o + 1) xs with
        | error e => rw [hp] at h; cases h
        | ok r =>
          obtain ⟨st2, zs⟩ := r
          rw [hp] at h
          simp only [Except.ok.injEq, Prod.mk.injEq] at h
          obtain ⟨rfl, rfl⟩ := h
          simp only [if_true]
          rw [ih st1 (i + 1) (o + 1) st2 zs hp]
          simp only [List.length_cons]
          rw [show i + 1 + xs.length = i + (xs.length + 1) by omega,
            show o + 1 + zs.length = o + (zs.length + 1) by omega]
          cases Spec.lastFlag adv st2 (i + (xs.length + 1)) (o + (zs.length + 1)) xs' <;> rfl
      | false =>
        simp only [] at h
        simp only [Bool.false_eq_true, if_false]
        rw [ih st1 (i + 1) o st' ys h]
        rw [show i + 1 + xs.length = i + (xs.length + 1) by omega]
        cases Spec.lastFlag adv st' (i + (xs.length + 1)) (o + ys.length) xs' <;> rfl

theorem moveOne_err {adv : Adv σ α} {sl : Nat} {o : Bool} {a : SA α} {c : Nat} {ps : Pass σ α}
    {ys : List α} (h : PInv sl o a c ps ys) (ha : a.WF sl) (ip : Nat) (hip : ip < sl)
    (hx : c * sl + ip < (a.items sl).length)
    (hic : ps.indexChange = decide (ys.length ≠ c * sl + ip)) :
    moveOne adv ⟨!o, (c : Int)⟩ ip ps =
      match adv ps.st ((c * sl + ip : Nat) : Int) (ys.length : Int)
        (decide (ys.length ≠ c * sl + ip)) ((a.items sl)[c * sl + ip]) with
      | .error e => .error e
      | .ok (st', p', keep) => moveOne (fun _ _ _ _ _ => .ok (st', p', keep)) ⟨!o, (c : Int)⟩ ip ps := by
  obtain ⟨ps1, e1, h1, hlt, hst, hic1⟩ := nextOut_ok h
  have hfi : ps1.s.getFullIndices ip ps1.ipOut =
      (((c * sl + ip : Nat) : Int), (ys.length : Int)) := by
    unfold getFullIndices
    have hs := h1.sync
    unfold Synced at hs
    rw [h1.inn, hs, h1.sleq, h1.len]
    push_cast
    rfl
  unfold moveOne
  rw [e1]
  simp only [bind, Except.bind]
  rw [read_ok h1 ha ip hip hx]
  simp only [hfi, hst, hic1, hic]
  cases adv ps.st ((c * sl + ip : Nat) : Int) (ys.length : Int)
        (decide (ys.length ≠ c * sl + ip)) ((a.items sl)[c * sl + ip]) with
  | error e => rfl
  | ok r => rfl

theorem moveItems_ok {adv : Adv σ α} {sl : Nat} {o : Bool} {a : SA α} {c : Nat} (ha : a.WF sl)
    (k : Nat) : ∀ (ip : Nat) (ps : Pass σ α) (ys : List α), PInv sl o a c ps ys →
    ip + k ≤ sl → c * sl + ip + k ≤ (a.items sl).length →
    ps.indexChange = decide (ys.length ≠ c * sl + ip) → ys.length ≤ c * sl + ip →
    Agree sl o a c (c * sl + ip + k) ys (moveItems adv ⟨!o, (c : Int)⟩ k ip ps)
      (Spec.pass adv ps.st (c * sl + ip) ys.length (((a.items sl).drop (c * sl + ip)).take k))
      (Spec.lastFlag adv ps.st (c * sl + ip) ys.length
        (((a.items sl).drop (c * sl + ip)).take k)) := by
  induction k with
  | zero =>
    intro ip ps ys h _ _ hic hle
    simp only [List.take_zero, Spec.pass, moveItems, Agree, List.append_nil, Nat.add_zero]
    exact ⟨ps, rfl, h, rfl, hic, hle, by simp [Spec.lastFlag, LastOk]⟩
  | succ k ih =>
    intro ip ps ys h hip hx hic hle
    have hx1 : c * sl + ip < (a.items sl).length := by omega
    rw [List.drop_eq_getElem_cons hx1, List.take_succ_cons]
    have hone := moveOne_err (adv := adv) h ha ip (by omega) hx1 hic
    unfold moveItems
    have htake : (((a.items sl).drop (c * sl + ip + 1)).take k).length = k := by
      rw [List.length_take, List.length_drop]; omega
    simp only [Spec.pass, Spec.lastFlag]
    rw [hone]
    cases hadv : adv ps.st ((c * sl + ip : Nat) : Int) (ys.length : Int)
        (decide (ys.length ≠ c * sl + ip)) ((a.items sl)[c * sl + ip]) with
    | error e => simp [Agree, bind, Except.bind]
    | ok r =>
      obtain ⟨st', p', keep⟩ := r
      obtain ⟨ps1, e1, h1, hlt, hst, hic1⟩ := nextOut_ok h
      obtain ⟨s', e2, hk, hd⟩ := write_ok h1 hlt p' st'
      simp only []
      cases keep with
      | true =>
        have hmo : moveOne (fun _ _ _ _ _ => .ok (st', p', true)) ⟨!o, (c : Int)⟩ ip ps =
            .ok (countFull { ps1 with s := s', st := st', ipOut := ps1.ipOut + 1 }) := by
          unfold moveOne
          rw [e1]
          simp only [bind, Except.bind]
          rw [read_ok h1 ha ip (by omega) hx1]
          simp only [e2]
          rfl
        rw [hmo]
        simp only [bind, Except.bind]
        have hst2 : (countFull { ps1 with s := s', st := st', ipOut := ps1.ipOut + 1 }).st = st' := by
          unfold countFull; split <;> rfl
        have hic2 : (countFull { ps1 with s := s', st := st', ipOut := ps1.ipOut + 1 }).indexChange =
            ps.indexChange := by
          unfold countFull; split <;> exact hic1
        have := ih (ip + 1) _ _ hk (by omega) (by omega) (by
          rw [hic2, hic]
          apply decide_eq_decide.2
          simp only [List.length_append, List.length_cons, List.length_nil]
          omega) (by simp only [List.length_append, List.length_cons, List.length_nil]; omega)
        rw [hst2, List.length_append, List.length_cons, List.length_nil] at this
        rw [show c * sl + (ip + 1) = c * sl + ip + 1 by omega] at this
        unfold Agree at this ⊢
        cases hsp : Spec.pass adv st' (c * sl + ip + 1) (ys.length + 1)
            (((a.items sl).drop (c * sl + ip + 1)).take k) with
        | error e =>
          simp only [Nat.zero_add, hsp] at this
          exact this
        | ok q =>
          obtain ⟨st'', zs⟩ := q
          simp only [Nat.zero_add, hsp] at this
          obtain ⟨ps', h3, h4, h5, h6, h7, h8⟩ := this
          refine ⟨ps', h3, ?_, h5, ?_, ?_, ?_⟩
          · simpa using h4
          · rw [h6]
            apply decide_eq_decide.2
            simp only [List.length_append, List.length_cons, List.length_nil]
            omega
          · simp only [List.length_append, List.length_cons, List.length_nil] at h7 ⊢
            omega
          · simp only [if_true]
            cases hlf : Spec.lastFlag adv st' (c * sl + ip + 1) (ys.length + 1)
                (((a.items sl).drop (c * sl + ip + 1)).take k) with
            | some b => rw [hlf] at h8; exact h8
            | none =>
              have hnil := lastFlag_none hsp hlf
              rw [hnil] at htake
              simp only [List.length_nil] at htake
              subst htake
              simp only [moveItems, Except.ok.injEq] at h3
              subst h3
              refine ⟨fun _ => ?_, by simp⟩
              unfold countFull
              split <;> simp
      | false =>
        have hmo : moveOne (fun _ _ _ _ _ => .ok (st', p', false)) ⟨!o, (c : Int)⟩ ip ps =
            .ok (countFull { ps1 with s := s', st := st', indexChange := true }) := by
          unfold moveOne
          rw [e1]
          simp only [bind, Except.bind]
          rw [read_ok h1 ha ip (by omega) hx1]
          simp only [e2]
          rfl
        rw [hmo]
        simp only [bind, Except.bind]
        have hst2 : (countFull { ps1 with s := s', st := st', indexChange := true }).st = st' := by
          unfold countFull; split <;> rfl
        have hic2 : (countFull { ps1 with s := s', st := st', indexChange := true }).indexChange =
            true := by
          unfold countFull; split <;> rfl
        have := ih (ip + 1) _ _ (hd true) (by omega) (by omega) (by
          rw [hic2]
          symm
          rw [decide_eq_true_iff]
          omega) (by omega)
        rw [hst2] at this
        rw [show c * sl + (ip + 1) = c * sl + ip + 1 by omega] at this
        rw [show c * sl + ip + (k + 1) = c * sl + ip + 1 + k by omega]
        unfold Agree at this ⊢
        cases hsp : Spec.pass adv st' (c * sl + ip + 1) ys.length
            (((a.items sl).drop (c * sl + ip + 1)).take k) with
        | error e => rw [hsp] at this; exact this
        | ok q =>
          rw [hsp] at this
          obtain ⟨ps', h3, h4, h5, h6, h7, h8⟩ := this
          refine ⟨ps', h3, h4, h5, h6, h7, ?_⟩
          simp only [Bool.false_eq_true, if_false]
          cases hlf : Spec.lastFlag adv st' (c * sl + ip + 1) ys.length
              (((a.items sl).drop (c * sl + ip + 1)).take k) with
          | some b => rw [hlf] at h8; exact h8
          | none =>
            have hnil := lastFlag_none hsp hlf
            rw [hnil] at htake
            simp only [List.length_nil] at htake
            subst htake
            simp only [moveItems, Except.ok.injEq] at h3
            subst h3
            refine ⟨by simp, fun _ => ?_⟩
            unfold countFull
            rw [if_neg (by
              have := (hd true).sleq
              unfold countFull at this
              split at this <;> simp only [] at this ⊢ <;> omega)]
            exact hlt

theorem pass_append (adv : Adv σ α) (xs xs' : List α) : ∀ (st : σ) (i o : Nat),
    Spec.pass adv st i o (xs ++ xs') =
      match Spec.pass adv st i o xs with
      | .error e => .error e
      | .ok (st', ys) =>
        match Spec.pass adv st' (i + xs.length) (o + ys.length) xs' with
        | .error e => .error e
        | .ok (st'', zs) => .ok (st'', ys ++ zs) := by
  induction xs with
  | nil =>
    intro st i o
    simp only [List.nil_append, Spec.pass, List.length_nil, Nat.add_zero]
    cases Spec.pass adv st i o xs' with
    | error e => rfl
    | ok q => rfl
  | cons x xs ih =>
    intro st i o
    simp only [List.cons_append, Spec.pass]
    cases adv st i o (decide (o ≠ i)) x with
    | error e => rfl
    | ok r =>
      obtain ⟨st', p', keep⟩ := r
      cases keep with
      | true =>
        simp only []
        rw [ih]
        cases Spec.pass adv st' (i + 1) (o + 1) xs with
        | error e => rfl
        | ok q =>
          obtain ⟨st'', ys⟩ := q
          simp only [List.length_cons]
          rw [show i + 1 + xs.length = i + (xs.length + 1) by omega,
            show o + 1 + ys.length = o + (ys.length + 1) by omega]
          cases Spec.pass adv st'' (i + (xs.length + 1)) (o + (ys.length + 1)) xs' with
          | error e => rfl
          | ok q => rfl
      | false =>
        simp only []
        rw [ih]
        simp only [List.length_cons]
        rw [show i + 1 + xs.length = i + (xs.length + 1) by omega]

/-- Advancing to the next "in" segment. -/
theorem nextIn_eq {sl : Nat} {o : Bool} {a : SA α} {c : Nat} {ps : Pass σ α} {ys : List α}
    (h : PInv sl o a c ps ys) :
    ∃ s', ps.s.getNextSegment .In = (s',
        if a.fnf < (c : Int) + 1 then (0, none)
        else if a.fnf = (c : Int) + 1 then
          if a.fao = 0 then (0, none) else (a.fao, some ⟨!o, (c : Int) + 1⟩)
        else ((sl : Int), some ⟨!o, (c : Int) + 1⟩)) ∧
      PInv sl o a (c + 1) { ps with s := s' } ys := by
  have harr : ps.s.arr ps.s.inSel = { a with cur := c } := h.inn
  have hsel := h.inv.sel
  have hout : ∀ b : SA α, (ps.s.setArr ps.s.inSel b).outA = ps.s.outA := by
    intro b
    unfold outA
    rw [setArr_outSel, arr_setArr_ne]
    rw [hsel]; cases ps.s.outSel <;> simp
  have haw : a.WF ps.s.sl := by
    have := h.inv.inn
    rw [h.inn] at this
    exact ⟨this.pos, this.nseg, this.uni, this.fnf0, this.fnfLt, this.fao0, this.faoLe⟩
  refine ⟨ps.s.setArr ps.s.inSel { a with cur := (c : Int) + 1 }, ?_, ?_⟩
  · unfold getNextSegment
    simp only [SAP.sel, harr]
    have : ps.s.inSel = !o := by rw [hsel, h.osel]
    rw [this, h.sleq]
    split
    · rfl
    · split
      · split <;> rfl
      · rfl
  · refine ⟨setArr_inv h.inv _ (WF_cur haw _), by simpa [Synced, hout] using h.sync,
      by simpa using h.sleq, by simpa using h.osel, ?_, by simpa [hout] using h.fao,
      by simpa [hout] using h.vout, h.ip, by simpa [hout] using h.len, by simpa [hout] using h.wr,
      h.cnt⟩
    simp only [inA, setArr_inSel, arr_setArr_same]
    push_cast
    rfl

theorem moveSegs_ok {adv : Adv σ α} {sl : Nat} {o : Bool} {a : SA α} (ha : a.WF sl) (k : Nat) :
    ∀ (c fuel : Nat) (ps : Pass σ α) (ys : List α), PInv sl o a c ps ys →
    (c : Int) + k = a.fnf → k < fuel → (a.fnf = (c : Int) → a.fao ≠ 0) →
    ps.indexChange = decide (ys.length ≠ c * sl) → ys.length ≤ c * sl →
    (match Spec.pass adv ps.st (c * sl) ys.length ((a.items sl).drop (c * sl)) with
      | .error e => moveSegs adv fuel (if a.fnf = (c : Int) then a.fao else sl) (some ⟨!o, (c : Int)⟩) ps
          = .error e
      | .ok (st', zs) => ∃ ps' c', moveSegs adv fuel (if a.fnf = (c : Int) then a.fao else sl)
          (some ⟨!o, (c : Int)⟩) ps = .ok ps' ∧ PInv sl o a c' ps' (ys ++ zs) ∧ ps'.st = st' ∧
          LastOk sl (Spec.lastFlag adv ps.st (c * sl) ys.length ((a.items sl).drop (c * sl))) ps') := by
  obtain ⟨f, o', hf, ho', hfl, hol, hfl2, hle⟩ := ha.total
  have hlen : (a.items sl).length = f * sl + o' := by
    have := ha.items_length
    rw [hf, ho'] at this
    exact_mod_cast this
  induction k with
  | zero =>
    intro c fuel ps ys h hc hfuel hne hic hyl
    have hcf : c = f := by omega
    subst hcf
    obtain ⟨fuel, rfl⟩ : ∃ m, fuel = m + 1 := ⟨fuel - 1, by omega⟩
    rw [if_pos hf]
    have hitems := moveItems_ok (adv := adv) ha o' 0 ps ys h (by omega) (by omega)
      (by simpa using hic) (by simpa using hyl)
    rw [Nat.add_zero] at hitems
    rw [List.take_of_length_le (by rw [List.length_drop]; omega)] at hitems
    unfold moveSegs
    rw [ho']
    simp only [Int.toNat_natCast]
    unfold Agree at hitems
    cases hsp : Spec.pass adv ps.st (c * sl) ys.length ((a.items sl).drop (c * sl)) with
    | error e =>
      rw [hsp] at hitems
      simp only [] at hitems
      rw [hitems]
      rfl
    | ok q =>
      obtain ⟨st', zs⟩ := q
      rw [hsp] at hitems
      simp only [] at hitems
      obtain ⟨ps', h3, h4, h5, h6, h7, h9⟩ := hitems
      obtain ⟨s', hn, h8⟩ := nextIn_eq h4
      refine ⟨{ ps' with s := s' }, c + 1, ?_, h8, h5, h9⟩
      rw [h3]
      simp only [bind, Except.bind]
      rw [hn, if_pos (by omega)]
      simp only [moveSegs]
  | succ k ih =>
    intro c fuel ps ys h hc hfuel hne hic hyl
    obtain ⟨fuel, rfl⟩ : ∃ m, fuel = m + 1 := ⟨fuel - 1, by omega⟩
    have hcf : c + 1 ≤ f := by omega
    rw [if_neg (by omega)]
    have hmul : (c + 1) * sl ≤ f * sl := Nat.mul_le_mul_right _ hcf
    rw [Nat.succ_mul] at hmul
    have hitems := moveItems_ok (adv := adv) ha sl 0 ps ys h (by omega) (by omega)
      (by simpa using hic) (by simpa using hyl)
    rw [Nat.add_zero] at hitems
    unfold moveSegs
    simp only [Int.toNat_natCast]
    unfold Agree at hitems
    have hsplit : (a.items sl).drop (c * sl) =
        ((a.items sl).drop (c * sl)).take sl ++ (a.items sl).drop ((c + 1) * sl) := by
      rw [Nat.succ_mul, ← List.drop_drop, List.take_append_drop]
    rw [hsplit, pass_append]
    have hl1 : (((a.items sl).drop (c * sl)).take sl).length = sl := by
      rw [List.length_take, List.length_drop]; omega
    rw [hl1]
    cases hsp : Spec.pass adv ps.st (c * sl) ys.length (((a.items sl).drop (c * sl)).take sl) with
    | error e =>
      rw [hsp] at hitems
      simp only [] at hitems ⊢
      rw [hitems]
      rfl
    | ok q =>
      obtain ⟨st', zs⟩ := q
      rw [hsp] at hitems
      simp only [] at hitems ⊢
      obtain ⟨ps', h3, h4, h5, h6, h7, h9⟩ := hitems
      have hlapp := lastFlag_append (xs' := (a.items sl).drop ((c + 1) * sl)) _ _ _ _ _ _ hsp
      rw [hl1] at hlapp
      rw [hlapp]
      subst h5
      obtain ⟨s', hn, h8⟩ := nextIn_eq h4
      rw [h3]
      simp only [bind, Except.bind]
      rw [hn, if_neg (by omega)]
      by_cases hlast : a.fnf = (c : Int) + 1 ∧ a.fao = 0
      · rw [if_pos hlast.1, if_pos hlast.2]
        have hempty : (a.items sl).drop ((c + 1) * sl) = [] := by
          apply List.drop_eq_nil_of_le
          rw [hlen]
          have : f = c + 1 := by omega
          rw [this]
          omega
        rw [hempty]
        simp only [Spec.pass, moveSegs, List.append_nil, Spec.lastFlag]
        exact ⟨{ ps' with s := s' }, c + 1, rfl, h8, rfl, h9⟩
      · have harg : (if a.fnf = (c : Int) + 1 then
            if a.fao = 0 then ((0 : Int), (none : Option View)) else (a.fao, some ⟨!o, (c : Int) + 1⟩)
            else ((sl : Int), some ⟨!o, (c : Int) + 1⟩)) =
            ((if a.fnf = ((c + 1 : Nat) : Int) then a.fao else (sl : Int)),
              some ⟨!o, ((c + 1 : Nat) : Int)⟩) := by
          by_cases h9 : a.fnf = (c : Int) + 1
          · rw [if_pos h9, if_neg (fun h10 => hlast ⟨h9, h10⟩), if_pos (by push_cast; exact h9)]
            rfl
          · rw [if_neg h9, if_neg (by push_cast; exact h9)]
            rfl
        rw [harg]
        simp only []
        have := ih (c + 1) fuel { ps' with s := s' } (ys ++ zs) h8 (by push_cast; omega) (by omega)
          (fun h10 h11 => hlast ⟨by rw [h10]; push_cast; rfl, h11⟩)
          (by simp only []; rw [h6, Nat.succ_mul]) (by rw [Nat.succ_mul]; exact h7)
        simp only [] at this
        rw [show c * sl + sl = (c + 1) * sl by rw [Nat.succ_mul]]
        rw [List.length_append] at this
        have hne2 : (a.items sl).drop ((c + 1) * sl) ≠ [] := by
          intro hc'
          have := congrArg List.length hc'
          rw [List.length_drop, hlen, List.length_nil] at this
          by_cases h9 : a.fnf = (c : Int) + 1
          · have h10 : f = c + 1 := by omega
            apply hlast
            refine ⟨h9, ?_⟩
            rw [h10] at this
            omega
          · have h10 : c + 2 ≤ f := by omega
            have h11 : (c + 2) * sl ≤ f * sl := Nat.mul_le_mul_right _ h10
            rw [Nat.succ_mul] at h11
            have := ha.pos
            omega
        cases hsp2 : Spec.pass adv ps'.st ((c + 1) * sl) (ys.length + zs.length)
            ((a.items sl).drop ((c + 1) * sl)) with
        | error e => rw [hsp2] at this; exact this
        | ok q =>
          obtain ⟨st'', ws⟩ := q
          rw [hsp2] at this
          simp only [List.append_assoc] at this ⊢
          cases hlf : Spec.lastFlag adv ps'.st ((c + 1) * sl) (ys.length + zs.length)
              ((a.items sl).drop ((c + 1) * sl)) with
          | none => exact absurd (lastFlag_none hsp2 hlf) hne2
          | some b => rw [hlf] at this; exact this

/-- The whole pass on a non-empty container. `cur` at the end, and which
segments are in use, are part of the statement because they decide whether
later appends raise. -/
theorem meshPass_ok (adv : Adv σ α) {s : SAP α} (h : s.Inv) (hne : s.contents ≠ []) (st : σ) :
    match Spec.pass adv st 0 0 s.contents with
    | .error e => meshPass adv s st = .error e
    | .ok (st', ys) => ∃ (t : SAP α) (q : Nat), meshPass adv s st = .ok (t.setNumberOfItems .Out (ys.length : Int), st') ∧
        t.Inv ∧ t.sl = s.sl ∧ t.outSel = s.inSel ∧ t.inSel = s.outSel ∧
        t.outA.cur = q ∧ t.outA.fnf = q ∧ t.outA.fao = 0 ∧ q * s.sl ≤ ys.length ∧
        (Spec.lastFlag adv st 0 0 s.contents = some true →
          q * s.sl < ys.length ∧ ys.length ≤ (q + 1) * s.sl) ∧
        (Spec.lastFlag adv st 0 0 s.contents = some false → ys.length < (q + 1) * s.sl) ∧
        ys.length ≤ t.outA.nseg * s.sl ∧
        t.outA.segs.flatten.take ys.length = ys ∧
        (∃ c, t.inA = { s.outA with cur := c }) := by
  obtain ⟨s1, e, h1, h2, h3, h4, h5, h6, h7⟩ := initInoutLoop_nonempty h hne
  have hpos := h.out.pos
  have hsel1 : (!s1.outSel) = s1.inSel := h7.sel.symm
  have hp : PInv s.sl s1.outSel s.outA 0
      (⟨s1, ⟨s1.outSel, 0⟩, 0, 0, false, st⟩ : Pass σ α) [] := by
    refine ⟨h7, by simp [Synced, h6], h3, rfl, by simp only []; rw [h5]; rfl, by simp [h6], by simp [h6], by simp,
      by simp [h6], by simp, ?_⟩
    rw [if_neg (by simp only []; omega)]
    rfl
  obtain ⟨f, o', hf, ho', hfl, hol, hfl2, hle⟩ := h.out.total
  have hfao : s.outA.fnf = ((0 : Nat) : Int) → s.outA.fao ≠ 0 := by
    intro h8 h9
    exact hne ((contents_nil_iff h.out).2 ⟨by simpa using h8, h9⟩)
  have key := moveSegs_ok (adv := adv) h.out f 0 (s.outA.nseg + 1) _ [] hp (by rw [hf]; simp)
    (by rw [h.out.nseg]; omega) hfao (by simp) (by simp)
  simp only [Nat.zero_mul, List.drop_zero, List.length_nil, List.nil_append] at key
  rw [show s.outA.items s.sl = s.contents from rfl] at key
  have hstart : (if s.outA.fnf = ((0 : Nat) : Int) then s.outA.fao else (s.sl : Int)) =
      firstCount s.sl s.outA := rfl
  rw [hstart, hsel1] at key
  unfold meshPass
  rw [e]
  simp only []
  cases hsp : Spec.pass adv st 0 0 s.contents with
  | error e' =>
    rw [hsp] at key
    simp only [] at key ⊢
    rw [show ((0 : Nat) : Int) = 0 from rfl] at key
    rw [key]
    rfl
  | ok q =>
    obtain ⟨st', ys⟩ := q
    rw [hsp] at key
    simp only [] at key ⊢
    obtain ⟨ps', c', h8, h9, h10, h12⟩ := key
    rw [show ((0 : Nat) : Int) = 0 from rfl] at h8
    rw [h8]
    simp only [bind, Except.bind, pure, Except.pure]
    obtain ⟨hi, hs, hsl, ho, hin, hfao', hv, hip, hlen, hwr, hcnt⟩ := h9
    obtain ⟨g, o'', hg, ho'', hgl, _, hgl2, hgle⟩ := hi.out.total
    have hL : ys.length = g * s.sl + ps'.ipOut := by
      rw [hg] at hlen; exact_mod_cast hlen
    have hmul : (g + 1) * s.sl ≤ ps'.s.outA.segs.length * s.sl := Nat.mul_le_mul_right _ hgl
    refine ⟨ps'.s, g, ?_, hi, hsl, ?_, ?_, ?_, hg, hfao', by omega, ?_, ?_, ?_, hwr, ⟨_, hin⟩⟩
    · have hc : (if ps'.ipOut ≠ ps'.s.sl then ps'.count + ps'.ipOut else ps'.count) = ys.length := by
        rw [hsl, hcnt]
        by_cases h11 : ps'.ipOut = s.sl
        · rw [if_neg (by simpa using h11), if_pos h11]
        · rw [if_pos h11, if_neg h11]; omega
      rw [h10, hc]
    · rw [ho, h2]
    · rw [hi.sel, ho, h2, h.sel]; simp
    · have := hs; unfold Synced at this; rw [this, hg]
    · intro h13
      have := h12.1 h13
      rw [Nat.succ_mul]
      omega
    · intro h13
      have := h12.2 h13
      rw [Nat.succ_mul]
      omega
    · rw [hi.out.nseg]
      rw [Nat.succ_mul] at hmul
      omega

end Mover
end Dt
