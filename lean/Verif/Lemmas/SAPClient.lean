import Verif.Model.SAPClient
import Verif.Lemmas.SAPReach

/-! # Refinement of the list machine by the container model -/

namespace Dt
namespace SAP
open Spec (Call Res LState)
variable {α : Type _}

/-- Simulation relation between the container and the list machine. -/
structure Sim (s : SAP α) (st : LState α) : Prop where
  inv : s.Inv
  items : s.contents = st.items
  stale : st.stale = decide (s.outA.cur ≠ s.outA.fnf)
  tidy : 0 < s.outA.fnf → 0 < s.outA.fao

theorem new_sim (sl : Nat) (junk : α) (h : 0 < sl) : Sim (new sl junk) ⟨[], false⟩ :=
  ⟨new_inv sl junk h, by simp, by simp [new, outA, arr], by simp [new, outA, arr]⟩

theorem tidy_fnf {s : SAP α} (h : s.Inv) (ht : 0 < s.outA.fnf → 0 < s.outA.fao) :
    s.outA.fnf = ((s.contents.length - 1) / s.sl : Nat) := by
  obtain ⟨f, o, hf, ho, hfl, hol, hfl2, hle⟩ := h.out.total
  have hl : s.contents.length = f * s.sl + o := by
    have := h.out.items_length
    rw [hf, ho] at this
    exact_mod_cast this
  rw [hf, hl]
  congr 1
  symm
  have hpos := h.out.pos
  by_cases ho0 : o = 0
  · have : f = 0 := by
      by_cases hf0 : f = 0
      · exact hf0
      · exfalso; have := ht (by omega); omega
    subst this ho0
    simp
  · rw [Nat.div_eq_iff hpos]
    omega

theorem full_iff {s : SAP α} (h : s.Inv) (ht : 0 < s.outA.fnf → 0 < s.outA.fao) :
    s.outA.fao = s.sl ↔ s.contents ≠ [] ∧ s.contents.length % s.sl = 0 := by
  obtain ⟨f, o, hf, ho, hfl, hol, hfl2, hle⟩ := h.out.total
  have hl : s.contents.length = f * s.sl + o := by
    have := h.out.items_length
    rw [hf, ho] at this
    exact_mod_cast this
  have hpos := h.out.pos
  rw [ho, ← List.length_pos_iff, hl]
  have hm : (f * s.sl + o) % s.sl = o % s.sl := by rw [Nat.mul_comm, Nat.mul_add_mod]
  rw [hm]
  constructor
  · intro h'
    have : o = s.sl := by omega
    subst this
    simp; omega
  · rintro ⟨h1, h2⟩
    have hne : o ≠ 0 := by
      intro h0
      subst h0
      have : f ≠ 0 := by intro h3; subst h3; simp at h1
      have := ht (by omega)
      omega
    by_cases hlt : o < s.sl
    · rw [Nat.mod_eq_of_lt hlt] at h2; omega
    · omega

theorem readLoopAbandoned_eq (s : SAP α) (k : Nat) : s.readLoopAbandoned k = s.withCur k := by
  unfold readLoopAbandoned
  rw [initOutLoop_eq]
  dsimp only
  induction k with
  | zero => simp
  | succ k ih =>
    rw [List.range_succ, List.foldl_append, ih]
    simp [getNextSegment_out_eq]

/-- One call: the container does what the list machine does. -/
theorem sim_step {s : SAP α} {st : LState α} (h : Sim s st) (c : Call α) :
    match st.step s.sl c with
    | none => True
    | some (.error e) => s.call c = .error e
    | some (.ok (st', r)) => ∃ s', s.call c = .ok (s', r) ∧ Sim s' st' ∧ s'.sl = s.sl := by
  obtain ⟨hi, hc, hst, ht⟩ := h
  cases c with
  | push x =>
    simp only [LState.step]
    have hfull := full_iff hi ht
    by_cases hcond : st.stale = true ∧ st.items ≠ [] ∧ st.items.length % s.sl = 0
    · rw [if_pos hcond]
      simp only [call]
      have hf : s.outA.fao = s.sl := hfull.2 (by rw [hc]; exact hcond.2)
      have hns : ¬ s.Synced := by
        have := hcond.1
        rw [hst] at this
        simpa [Synced] using this
      rw [pushBack_err x hf hns]
      rfl
    · rw [if_neg hcond]
      have hp : s.outA.fao < s.sl ∨ s.Synced := by
        rcases pushBack_cases hi with hp | ⟨hf, hns⟩
        · exact hp
        · exfalso
          apply hcond
          refine ⟨?_, by rw [← hc]; exact hfull.1 hf⟩
          rw [hst]; simpa [Synced] using hns
      obtain ⟨s', e, hi', hc', hsl, hj, hin, his, hos, hcur, hns, hfao'⟩ := pushBack_ok hi x hp
      refine ⟨s', ?_, ⟨hi', ?_, ?_, ?_⟩, hsl⟩
      · simp only [call]
        rw [e]
        simp only [bind, Except.bind, pure, Except.pure, Int.toNat_natCast, hc]
      · rw [hc', hc]
      · simp only []
        rw [hst]
        apply decide_eq_decide.2
        constructor <;> intro hh <;> omega
      · intro _; exact hfao'
  | get i =>
    simp only [LState.step]
    cases hg : st.items[i]? with
    | none => trivial
    | some x =>
      have hi2 : i < st.items.length := by
        rw [List.getElem?_eq_some_iff] at hg
        exact hg.1
      refine ⟨s, ?_, ⟨hi, hc, hst, ht⟩, rfl⟩
      simp only [call]
      have hi3 : i < s.contents.length := by rw [hc]; exact hi2
      rw [getItem_ok hi hi3]
      have : s.contents[i] = x := by
        have h4 := List.getElem?_eq_getElem hi3
        rw [show s.contents[i]? = some x by rw [hc]; exact hg] at h4
        exact (Option.some.inj h4).symm
      rw [this]
      rfl
  | set i v =>
    simp only [LState.step]
    by_cases hlt : i < st.items.length
    · rw [if_pos hlt]
      obtain ⟨s', e, hi', hc', hsl, hj, hin, his, hos, hcur, hfnf, hfao, hn⟩ :=
        setItem_ok hi (i := i) (by rw [hc]; exact hlt) v
      refine ⟨s', ?_, ⟨hi', by rw [hc', hc], by simp only []; rw [hst, hcur, hfnf],
        by rw [hfnf, hfao]; exact ht⟩, hsl⟩
      simp only [call]
      rw [e]
      rfl
    · rw [if_neg hlt]; trivial
  | count =>
    simp only [LState.step]
    refine ⟨s, ?_, ⟨hi, hc, hst, ht⟩, rfl⟩
    simp only [call, pure, Except.pure]
    rw [← contents_length hi, hc, Int.toNat_natCast]
  | readAll =>
    simp only [LState.step]
    refine ⟨s.withCur (if s.contents = [] then 0 else endCur s.outA), ?_,
      ⟨withCur_inv hi _, ?_, ?_, ?_⟩, withCur_sl _ _⟩
    · simp only [call]
      rw [readLoop_ok hi.out, hc]
      rfl
    · simpa using hc
    · simp only [withCur_outA]
      rw [← hc]
      apply decide_eq_decide.2
      by_cases h0 : s.contents = []
      · have := (contents_nil_iff hi.out).1 h0
        simp [h0, this.1]
      · rw [if_neg h0]
        simp only [ne_eq, h0, not_false_eq_true, true_iff]
        unfold endCur
        split
        · rename_i hfao
          exfalso
          apply h0
          rw [contents_nil_iff hi.out]
          refine ⟨?_, hfao⟩
          have := hi.out.fnf0
          by_cases h1 : 0 < s.outA.fnf
          · have := ht h1; omega
          · omega
        · omega
    · simpa using ht
  | readSome k =>
    simp only [LState.step]
    refine ⟨s.withCur k, ?_, ⟨withCur_inv hi _, ?_, ?_, ?_⟩, withCur_sl _ _⟩
    · simp only [call, pure, Except.pure]
      rw [readLoopAbandoned_eq]
    · simpa using hc
    · simp only [withCur_outA]
      rw [← hc]
      apply decide_eq_decide.2
      rw [tidy_fnf hi ht]
      omega
    · simpa using ht

/-- Whole histories. -/
theorem sim_run {s : SAP α} {st : LState α} (h : Sim s st) (cs : List (Call α))
    (rs : List (Res α)) (f : Except Err (LState α)) (hrun : st.run s.sl cs = some (rs, f)) :
    ∃ f', s.runCalls cs = (rs, f') ∧
      match f with
      | .error e => f' = .error e
      | .ok st' => ∃ s', f' = .ok s' ∧ Sim s' st' ∧ s'.sl = s.sl := by
  induction cs generalizing s st rs f with
  | nil =>
    simp only [LState.run, Option.some.injEq, Prod.mk.injEq] at hrun
    obtain ⟨rfl, rfl⟩ := hrun
    exact ⟨.ok s, rfl, s, rfl, h, rfl⟩
  | cons c cs ih =>
    have hstep := sim_step h c
    simp only [LState.run] at hrun
    cases hs : st.step s.sl c with
    | none => rw [hs] at hrun; simp at hrun
    | some o =>
      rw [hs] at hrun hstep
      cases o with
      | error e =>
        simp only [Option.some.injEq, Prod.mk.injEq] at hrun hstep
        obtain ⟨rfl, rfl⟩ := hrun
        refine ⟨.error e, ?_, rfl⟩
        simp only [runCalls, hstep]
      | ok p =>
        obtain ⟨st', r⟩ := p
        simp only [] at hrun hstep
        obtain ⟨s', e1, hsim, hsl⟩ := hstep
        cases hr : st'.run s.sl cs with
        | none => rw [hr] at hrun; simp at hrun
        | some q =>
          obtain ⟨rs', g⟩ := q
          rw [hr] at hrun
          simp only [Option.some.injEq, Prod.mk.injEq] at hrun
          obtain ⟨rfl, rfl⟩ := hrun
          obtain ⟨f', e2, hf⟩ := ih hsim rs' g (by rw [hsl]; exact hr)
          refine ⟨f', ?_, ?_⟩
          · simp only [runCalls, e1, e2]
          · cases g with
            | error e => exact hf
            | ok st'' =>
              obtain ⟨s'', h1, h2, h3⟩ := hf
              exact ⟨s'', h1, h2, by rw [h3, hsl]⟩

end SAP
end Dt
