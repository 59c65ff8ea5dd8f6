import Verif.Lemmas.CppProgram
import Verif.Props.CppMover

/-!
# Properties of programs with compiled movers (C81)
-/

namespace Dt
namespace CppProgram
open SAP CppMover
open Spec.Prog (LSp)
variable {σ α : Type}

theorem Rel.stores {sl : Nat} {sp : Sp α} {l : LSp α} (h : Rel sl sp l) : CStores sp.sap l.xs :=
  (cstores_iff h.inv l.xs).2 h.items.symm

theorem Rel.step {sl : Nat} (h2 : 2 ≤ sl) {sp : Sp α} {l : LSp α} (h : Rel sl sp l)
    (hbig : l.xs.length < 4294967296) (skip : α → Bool) (adv : Adv σ α) (st : σ) :
    if l.xs = [] then cppStep skip adv sp.sap st = .ok (sp.sap, st)
    else match Spec.pass (Spec.skipping skip adv) st 0 0 l.xs with
    | .error e => cppStep skip adv sp.sap st = .error e
    | .ok (st', ys) => ∃ s', cppStep skip adv sp.sap st = .ok (s', st') ∧
        Rel sl { sp with sap := s' } ⟨l.charged, ys, decide (ys ≠ [] ∧ ys.length % sl = 0 ∧
            Spec.lastMoved skip adv st 0 0 l.xs = some false)⟩ := by
  have hst := h.stores
  split
  · rename_i h0
    have hz : sp.sap.getNumberOfItems = 0 := by rw [hst.1, h0]; rfl
    simp [cppStep, hz]
  · rename_i h0
    have hz : sp.sap.getNumberOfItems ≠ 0 := by
      have := List.length_pos_iff.2 h0
      rw [hst.1]; omega
    have key := cppPass_post skip adv h.inv (by rw [h.items]; exact h0) st (by rw [h.items]; exact hbig)
    rw [h.items] at key
    simp only [cppStep, if_neg hz]
    cases hp : Spec.pass (Spec.skipping skip adv) st 0 0 l.xs with
    | error e => rw [hp] at key; exact key
    | ok r =>
      obtain ⟨st', ys⟩ := r
      rw [hp] at key
      obtain ⟨s', e, post⟩ := key
      have post := post (.inr (by rw [h.sl]; exact h2))
      refine ⟨s', e, h.charged, by simp only; rw [post.sl, h.sl], post.inv, post.contents, ?_, ?_, ?_⟩
      · have := post.ahead
        rw [outA_py] at this
        simp only [CSA.py] at this
        exact_mod_cast this
      · have := post.sync
        unfold Synced at this
        rw [outA_py] at this
        simp only [CSA.py] at this
        rw [h.sl] at this
        simp only [decide_eq_true_eq]
        rw [← not_iff_not, ← this]
        simp only [ne_eq, Decidable.not_not]
        constructor
        · intro h; exact_mod_cast h.symm
        · intro h; exact_mod_cast h.symm
      · intro hys
        by_contra hf
        have hf0 : (s'.arr s'.outSel).fao = 0 := by simpa using hf
        have hl := post.inv.out.items_length
        have hit : s'.py.outA.items s'.py.sl = ys := post.contents
        rw [hit] at hl
        have hfull := post.full
        rw [outA_py] at hl hfull
        simp only [CSA.py, hf0] at hl hfull
        have hsl' : s'.py.sl = sl := post.sl.trans h.sl
        rw [hsl'] at hl
        have hl' : ys.length = (s'.arr s'.outSel).fnf * sl := by
          have : (ys.length : Int) = (s'.arr s'.outSel).fnf * (sl : Int) + 0 := hl
          rw [add_zero] at this
          exact_mod_cast this
        have := hfull.2 ⟨hys, by rw [h.sl, hl']; exact Nat.mul_mod_left _ _⟩
        rw [h.sl] at this
        omega

/-- All species. -/
abbrev RelAll (sl : Nat) : List (Sp α) → List (LSp α) → Prop := List.Forall₂ (Rel sl)

theorem advanceAll_rel {sl : Nat} (h2 : 2 ≤ sl) (isDel : α → Bool) (charged : Bool)
    (core : Nat → Adv σ α) : ∀ (sps : List (Sp α)) (ls : List (LSp α)) (_ : RelAll sl sps ls)
    (_ : ∀ l ∈ ls, l.xs.length < 4294967296) (k : Nat) (st : σ),
    match Spec.Prog.advanceAll sl isDel charged core k ls st with
    | .error e => advanceAll isDel charged core k sps st = .error e
    | .ok (ls', st') => ∃ sps', advanceAll isDel charged core k sps st = .ok (sps', st') ∧
        RelAll sl sps' ls' ∧ List.Forall₂ (fun l l' => l'.xs.length ≤ l.xs.length) ls ls' := by
  intro sps ls h
  induction h with
  | nil => intro _ k st; exact ⟨[], rfl, .nil, .nil⟩
  | @cons sp l sps ls hr hrs ih =>
    intro hbig k st
    have hbl := hbig l (by simp)
    have hbs : ∀ l ∈ ls, l.xs.length < 4294967296 := fun l' h' => hbig l' (by simp [h'])
    have hstep := hr.step h2 hbl (if charged then fun _ => false else isDel) (core k) st
    simp only [Spec.Prog.advanceAll, advanceAll, hr.charged]
    by_cases hc : l.charged = charged
    · simp only [hc, true_and, if_true]
      by_cases h0 : l.xs = []
      · rw [if_pos h0] at hstep
        rw [if_neg (by simpa using h0), hstep]
        simp only [bind, Except.bind]
        have ih' := ih hbs (k + 1) st
        cases hq : Spec.Prog.advanceAll sl isDel charged core (k + 1) ls st with
        | error e => rw [hq] at ih'; simp only at ih' ⊢; rw [ih']
        | ok r =>
          obtain ⟨ls', st'⟩ := r
          rw [hq] at ih'
          obtain ⟨sps', e, h3, h4⟩ := ih'
          simp only [e, pure, Except.pure]
          have hsp : sp = { charged := charged, sap := sp.sap } := by
            rw [← hc, ← hr.charged]
          exact ⟨_, rfl, .cons (by rw [← hsp]; exact hr) h3, .cons le_rfl h4⟩
      · rw [if_neg h0] at hstep
        rw [if_pos h0]
        cases hp : Spec.pass (Spec.skipping (if charged then fun _ => false else isDel) (core k)) st 0 0
            l.xs with
        | error e =>
          rw [hp] at hstep
          simp only at hstep ⊢
          rw [hstep]
          rfl
        | ok r =>
          obtain ⟨st1, ys⟩ := r
          rw [hp] at hstep
          obtain ⟨s', e1, hr'⟩ := hstep
          simp only [e1, bind, Except.bind]
          have ih' := ih hbs (k + 1) st1
          cases hq : Spec.Prog.advanceAll sl isDel charged core (k + 1) ls st1 with
          | error e => rw [hq] at ih'; simp only at ih' ⊢; rw [ih']
          | ok r =>
            obtain ⟨ls', st'⟩ := r
            rw [hq] at ih'
            obtain ⟨sps', e, h3, h4⟩ := ih'
            simp only [e, pure, Except.pure]
            refine ⟨_, rfl, .cons ?_ h3, .cons (pass_length hp) h4⟩
            rw [hr.charged, hc] at hr'
            exact hr'
    · simp only [hc, false_and, if_false, bind, Except.bind]
      have ih' := ih hbs (k + 1) st
      cases hq : Spec.Prog.advanceAll sl isDel charged core (k + 1) ls st with
      | error e => rw [hq] at ih'; simp only at ih' ⊢; rw [ih']
      | ok r =>
        obtain ⟨ls', st'⟩ := r
        rw [hq] at ih'
        obtain ⟨sps', e, h3, h4⟩ := ih'
        simp only [e, pure, Except.pure]
        exact ⟨_, rfl, .cons hr h3, .cons le_rfl h4⟩

theorem onSpecies_rel {sl : Nat} {f : Sp α → Except Err (Sp α × Obs α)}
    {g : LSp α → Except Err (LSp α × Obs α)}
    (hfg : ∀ sp l, Rel sl sp l → match g l with
      | .error e => f sp = .error e
      | .ok (l', o) => ∃ sp', f sp = .ok (sp', o) ∧ Rel sl sp' l' ∧ l'.xs.length ≤ l.xs.length + 1) :
    ∀ (sps : List (Sp α)) (ls : List (LSp α)) (_ : RelAll sl sps ls) (k : Nat),
    match Spec.Prog.onSpecies g k ls with
    | .error e => onSpecies f k sps = .error e
    | .ok (ls', o) => ∃ sps', onSpecies f k sps = .ok (sps', o) ∧ RelAll sl sps' ls' ∧
        List.Forall₂ (fun l l' => l'.xs.length ≤ l.xs.length + 1) ls ls' := by
  have hrefl : ∀ ls : List (LSp α),
      List.Forall₂ (fun l l' => l'.xs.length ≤ l.xs.length + 1) ls ls := fun ls => by
    rw [List.forall₂_same]
    intro l _
    omega
  intro sps ls h
  induction h with
  | nil => intro k; cases k <;> rfl
  | @cons sp l sps ls hr hrs ih =>
    intro k
    cases k with
    | zero =>
      have := hfg sp l hr
      simp only [Spec.Prog.onSpecies, onSpecies]
      cases hg : g l with
      | error e => rw [hg] at this; simp only at this ⊢; rw [this]; rfl
      | ok r =>
        obtain ⟨l', o⟩ := r
        rw [hg] at this
        obtain ⟨sp', e, h1, h2⟩ := this
        simp only [e, bind, Except.bind, pure, Except.pure]
        exact ⟨_, rfl, .cons h1 hrs, .cons h2 (hrefl ls)⟩
    | succ k =>
      have := ih k
      simp only [Spec.Prog.onSpecies, onSpecies]
      cases hg : Spec.Prog.onSpecies g k ls with
      | error e => rw [hg] at this; simp only at this ⊢; rw [this]; rfl
      | ok r =>
        obtain ⟨l', o⟩ := r
        rw [hg] at this
        obtain ⟨sp', e, h1, h2⟩ := this
        simp only [e, bind, Except.bind, pure, Except.pure]
        exact ⟨_, rfl, .cons hr h1, .cons (by omega) h2⟩

theorem createList_rel {sl : Nat} (p : α) (sp : Sp α) (l : LSp α) (h : Rel sl sp l) :
    ∃ sp', createList p sp = .ok (sp', (Spec.Prog.append sl p l).2) ∧
      Rel sl sp' (Spec.Prog.append sl p l).1 := by
  obtain ⟨s', e, hr⟩ := h.push p
  have hst := hr.stores
  have hget : s'.getItem ((l.xs.length : Nat) : Int) = .ok p := by
    rw [hst.2 l.xs.length (by simp)]
    simp
  refine ⟨{ sp with sap := s' }, ?_, hr⟩
  unfold createList
  simp only [e, bind, Except.bind, CSAP.getSegmentAndOffset]
  unfold CSAP.getItem at hget
  simp only [bind, Except.bind] at hget
  cases hc : cGet (s'.arr s'.outSel).segs (Int.tdiv (l.xs.length : Int) s'.sl) with
  | error e' => rw [hc] at hget; cases hget
  | ok vec =>
    rw [hc] at hget
    simp only [pure, Except.pure] at hget ⊢
    rw [hget]
    rfl

theorem createSource_rel {sl : Nat} (p : α) (sp : Sp α) (l : LSp α) (h : Rel sl sp l) :
    if Spec.Prog.full sl l && l.ahead then createSource p sp = .error .abort
    else ∃ sp', createSource p sp = .ok (sp', (Spec.Prog.append sl p l).2) ∧
      Rel sl sp' (Spec.Prog.append sl p l).1 := by
  obtain ⟨s', e, hr⟩ := h.push p
  have ha := h.pushArray p
  unfold createSource
  split
  · rename_i hc
    rw [if_pos hc] at ha
    rw [ha]
    rfl
  · rename_i hc
    rw [if_neg hc] at ha
    rw [ha, e]
    exact ⟨_, rfl, hr⟩

theorem exec_rel {sl : Nat} (h2 : 2 ≤ sl) (isDel : α → Bool) {sps : List (Sp α)} {ls : List (LSp α)}
    (h : RelAll sl sps ls) (hbig : ∀ l ∈ ls, l.xs.length < 4294967296) (st : σ) (op : Op σ α) :
    match Spec.Prog.exec sl isDel (ls, st) op with
    | .error e => exec isDel (sps, st) op = .error e
    | .ok ((ls', st'), os) => ∃ sps', exec isDel (sps, st) op = .ok ((sps', st'), os) ∧
        RelAll sl sps' ls' ∧ List.Forall₂ (fun l l' => l'.xs.length ≤ l.xs.length + 1) ls ls' := by
  cases op with
  | advance charged core =>
    have key := advanceAll_rel h2 isDel charged core sps ls h hbig 0 st
    simp only [Spec.Prog.exec, exec, bind, Except.bind, pure, Except.pure]
    cases hq : Spec.Prog.advanceAll sl isDel charged core 0 ls st with
    | error e => rw [hq] at key; simp only at key ⊢; rw [key]
    | ok r =>
      obtain ⟨ls', st'⟩ := r
      rw [hq] at key
      obtain ⟨sps', e, h3, h4⟩ := key
      simp only [e]
      exact ⟨_, rfl, h3, h4.imp (fun _ _ h => by omega)⟩
  | createList k p =>
    have key := onSpecies_rel (sl := sl) (f := createList p)
      (g := fun sp => .ok (Spec.Prog.append sl p sp)) (fun sp l hr => by
        obtain ⟨sp', e, h3⟩ := createList_rel p sp l hr
        exact ⟨sp', e, h3, by simp [Spec.Prog.append]⟩) sps ls h k
    simp only [Spec.Prog.exec, exec, bind, Except.bind, pure, Except.pure]
    cases hq : Spec.Prog.onSpecies (fun sp => .ok (Spec.Prog.append sl p sp)) k ls with
    | error e => rw [hq] at key; simp only at key ⊢; rw [key]
    | ok r =>
      obtain ⟨ls', o⟩ := r
      rw [hq] at key
      obtain ⟨sps', e, h3, h4⟩ := key
      simp only [e]
      exact ⟨_, rfl, h3, h4⟩
  | createSource k p =>
    have key := onSpecies_rel (sl := sl) (f := createSource p)
      (g := fun sp => if Spec.Prog.full sl sp && sp.ahead then .error .abort
        else .ok (Spec.Prog.append sl p sp)) (fun sp l hr => by
        have h5 := createSource_rel p sp l hr
        by_cases hc : (Spec.Prog.full sl l && l.ahead) = true
        · simp only [hc, if_true] at h5 ⊢
          exact h5
        · simp only [hc, if_false, Bool.false_eq_true] at h5 ⊢
          obtain ⟨sp', e, h3⟩ := h5
          exact ⟨sp', e, h3, by simp [Spec.Prog.append]⟩) sps ls h k
    simp only [Spec.Prog.exec, exec, bind, Except.bind, pure, Except.pure]
    cases hq : Spec.Prog.onSpecies (fun sp => if Spec.Prog.full sl sp && sp.ahead then .error .abort
        else .ok (Spec.Prog.append sl p sp)) k ls with
    | error e => rw [hq] at key; simp only at key ⊢; rw [key]
    | ok r =>
      obtain ⟨ls', o⟩ := r
      rw [hq] at key
      obtain ⟨sps', e, h3, h4⟩ := key
      simp only [e]
      exact ⟨_, rfl, h3, h4⟩
  | look k =>
    have key := onSpecies_rel (sl := sl) (f := look)
      (g := fun sp => .ok ({ sp with ahead := !sp.xs.isEmpty }, .items sp.xs)) (fun sp l hr => by
        obtain ⟨sp', e, h3⟩ := hr.look
        exact ⟨sp', e, h3, by simp⟩) sps ls h k
    simp only [Spec.Prog.exec, exec, bind, Except.bind, pure, Except.pure]
    cases hq : Spec.Prog.onSpecies (fun sp => .ok ({ sp with ahead := !sp.xs.isEmpty },
        .items sp.xs)) k ls with
    | error e => rw [hq] at key; simp only at key ⊢; rw [key]
    | ok r =>
      obtain ⟨ls', o⟩ := r
      rw [hq] at key
      obtain ⟨sps', e, h3, h4⟩ := key
      simp only [e]
      exact ⟨_, rfl, h3, h4⟩
  | other f =>
    simp only [Spec.Prog.exec, exec, bind, Except.bind, pure, Except.pure]
    cases hf : f st with
    | error e => rfl
    | ok st' =>
      refine ⟨sps, rfl, h, ?_⟩
      rw [List.forall₂_same]
      intro l _
      omega

theorem run_rel {sl : Nat} (h2 : 2 ≤ sl) (isDel : α → Bool) : ∀ (ops : List (Op σ α))
    (sps : List (Sp α)) (ls : List (LSp α)) (_ : RelAll sl sps ls)
    (_ : ∀ l ∈ ls, l.xs.length + ops.length < 4294967296) (st : σ),
    match Spec.Prog.run sl isDel ops (ls, st) with
    | .error e => run isDel ops (sps, st) = .error e
    | .ok ((ls', st'), os) => ∃ sps', run isDel ops (sps, st) = .ok ((sps', st'), os) ∧
        RelAll sl sps' ls' := by
  intro ops
  induction ops with
  | nil => intro sps ls h _ st; exact ⟨sps, rfl, h⟩
  | cons op ops ih =>
    intro sps ls h hbig st
    have key := exec_rel h2 isDel h (fun l hl => by have := hbig l hl; omega) st op
    simp only [Spec.Prog.run, run, bind, Except.bind, pure, Except.pure]
    cases hq : Spec.Prog.exec sl isDel (ls, st) op with
    | error e => rw [hq] at key; simp only at key ⊢; rw [key]
    | ok r =>
      obtain ⟨⟨ls1, st1⟩, os1⟩ := r
      rw [hq] at key
      obtain ⟨sps1, e1, h3, h4⟩ := key
      simp only [e1]
      have hb1 : ∀ l ∈ ls1, l.xs.length + ops.length < 4294967296 := by
        intro l hl
        have hh := List.forall₂_iff_get.1 h4
        obtain ⟨i, hi⟩ := List.mem_iff_get.1 hl
        have hlt : i.1 < ls.length := by rw [hh.1]; exact i.2
        have hle := hh.2 i hlt i.2
        have hl0 : ls.get ⟨i, hlt⟩ ∈ ls := List.get_mem _ _
        generalize ls.get ⟨i, hlt⟩ = l0 at hle hl0
        have hi' : ls1.get ⟨i, i.2⟩ = l := hi
        rw [hi'] at hle
        have := hbig l0 hl0
        simp only [List.length_cons] at this
        omega
      have ih' := ih sps1 ls1 h3 hb1 st1
      cases hq2 : Spec.Prog.run sl isDel ops (ls1, st1) with
      | error e => rw [hq2] at ih'; simp only at ih' ⊢; rw [ih']
      | ok r =>
        obtain ⟨⟨ls2, st2⟩, os2⟩ := r
        rw [hq2] at ih'
        obtain ⟨sps2, e2, h5⟩ := ih'
        simp only [e2]
        exact ⟨sps2, rfl, h5⟩

/-! ### The lists without the storage position -/

/-- Forget the storage position. -/
abbrev plain (l : LSp α) : Bool × List α := (l.charged, l.xs)

theorem plainAdvance_of (sl : Nat) (isDel : α → Bool) (charged : Bool) (core : Nat → Adv σ α) :
    ∀ (ls : List (LSp α)) (k : Nat) (st : σ),
    Spec.Prog.plainAdvance isDel charged core k (ls.map plain) st =
      (Spec.Prog.advanceAll sl isDel charged core k ls st).map (fun r => (r.1.map plain, r.2)) := by
  intro ls
  induction ls with
  | nil => intro k st; rfl
  | cons l ls ih =>
    intro k st
    simp only [List.map_cons, Spec.Prog.plainAdvance, Spec.Prog.advanceAll, bind, Except.bind, pure,
      Except.pure]
    by_cases hc : l.charged = charged
    · by_cases h0 : l.xs = []
      · simp only [hc, h0, if_true, Spec.pass, Except.map, Prod.swap, ne_eq, not_true_eq_false,
          and_false, if_false]
        rw [ih]
        cases Spec.Prog.advanceAll sl isDel charged core (k + 1) ls st with
        | error e => rfl
        | ok r => simp [Except.map, hc, h0]
      · simp only [hc, if_true, ne_eq, h0, not_false_eq_true, and_self]
        cases Spec.pass (Spec.skipping (if charged = true then fun _ => false else isDel) (core k)) st 0 0
            l.xs with
        | error e => rfl
        | ok r =>
          obtain ⟨st', ys⟩ := r
          simp only [Except.map, Prod.swap]
          rw [ih]
          cases Spec.Prog.advanceAll sl isDel charged core (k + 1) ls st' with
          | error e => rfl
          | ok r => simp [Except.map]
    · simp only [hc, if_false, false_and]
      rw [ih]
      cases Spec.Prog.advanceAll sl isDel charged core (k + 1) ls st with
      | error e => rfl
      | ok r => simp [Except.map]

/-- What `onSpecies` does. -/
theorem onSpecies_get (f : LSp α → Except Err (LSp α × Obs α)) : ∀ (ls : List (LSp α)) (k : Nat),
    Spec.Prog.onSpecies f k ls = match ls[k]? with
      | none => .error .key
      | some l => (f l).map (fun r => (ls.set k r.1, r.2)) := by
  intro ls
  induction ls with
  | nil => intro k; cases k <;> rfl
  | cons l ls ih =>
    intro k
    cases k with
    | zero => simp only [Spec.Prog.onSpecies]; cases hf : f l <;> simp [hf, Except.map]
    | succ k =>
      simp only [Spec.Prog.onSpecies, ih k, List.getElem?_cons_succ]
      cases ls[k]? with
      | none => rfl
      | some l' => cases hf : f l' <;> simp [hf, Except.map]

/-- A call by a source: it aborts if the storage is full and the position has run ahead. -/
def Blocked (sl : Nat) (ls : List (LSp α)) : Op σ α → Prop
  | .createSource k _ => ∃ l, ls[k]? = some l ∧ Spec.Prog.full sl l = true ∧ l.ahead = true
  | _ => False

theorem plainExec_of (sl : Nat) (isDel : α → Bool) (ls : List (LSp α)) (st : σ) (op : Op σ α) :
    (Blocked sl ls op ∧ Spec.Prog.exec sl isDel (ls, st) op = .error .abort) ∨
    (¬ Blocked sl ls op ∧ Spec.Prog.plainExec sl isDel (ls.map plain, st) op =
      (Spec.Prog.exec sl isDel (ls, st) op).map (fun r => ((r.1.1.map plain, r.1.2), r.2))) := by
  cases op with
  | advance charged core =>
    refine .inr ⟨id, ?_⟩
    simp only [Spec.Prog.plainExec, Spec.Prog.exec, plainAdvance_of sl, bind, Except.bind, pure,
      Except.pure]
    cases Spec.Prog.advanceAll sl isDel charged core 0 ls st <;> rfl
  | createList k p =>
    refine .inr ⟨id, ?_⟩
    simp only [Spec.Prog.plainExec, Spec.Prog.exec, onSpecies_get, bind, Except.bind, pure,
      Except.pure, List.getElem?_map]
    cases ls[k]? with
    | none => rfl
    | some l => simp [Except.map, Spec.Prog.append, List.map_set]
  | createSource k p =>
    simp only [Spec.Prog.plainExec, Spec.Prog.exec, onSpecies_get, bind, Except.bind, pure,
      Except.pure, List.getElem?_map, Blocked]
    cases hk : ls[k]? with
    | none => exact .inr ⟨by simp, rfl⟩
    | some l =>
      by_cases hb : (Spec.Prog.full sl l && l.ahead) = true
      · refine .inl ⟨⟨l, rfl, ?_⟩, ?_⟩
        · simpa using hb
        · simp only [hb, if_true, Except.map]
      · refine .inr ⟨?_, ?_⟩
        · rintro ⟨l', h1, h2⟩
          cases h1
          exact hb (by simpa using h2)
        · simp only [hb, if_false, Bool.false_eq_true]
          simp [Except.map, Spec.Prog.append, List.map_set]
  | look k =>
    refine .inr ⟨id, ?_⟩
    simp only [Spec.Prog.plainExec, Spec.Prog.exec, onSpecies_get, bind, Except.bind, pure,
      Except.pure, List.getElem?_map]
    cases hk : ls[k]? with
    | none => rfl
    | some l =>
      simp only [Option.map_some, Except.map, List.map_set]
      have : (ls.map plain).set k (plain l) = ls.map plain := by
        apply List.ext_getElem?
        intro i
        rw [List.getElem?_set]
        split
        · rename_i h
          subst h
          have hlt := (List.getElem?_eq_some_iff.1 hk).1
          rw [if_pos (by simpa using hlt), List.getElem?_map, hk]
          rfl
        · rfl
      exact congrArg (fun z => Except.ok ((z, st), [Obs.items l.xs])) this.symm
  | other f =>
    refine .inr ⟨id, ?_⟩
    simp only [Spec.Prog.plainExec, Spec.Prog.exec, bind, Except.bind, pure, Except.pure]
    cases f st <;> rfl

theorem plainRun_of (sl : Nat) (isDel : α → Bool) : ∀ (ops : List (Op σ α)) (ls : List (LSp α)) (st : σ),
    ((∃ k p, .createSource k p ∈ ops) ∧ Spec.Prog.run sl isDel ops (ls, st) = .error .abort) ∨
    Spec.Prog.plainRun sl isDel ops (ls.map plain, st) =
      (Spec.Prog.run sl isDel ops (ls, st)).map (fun r => ((r.1.1.map plain, r.1.2), r.2)) := by
  intro ops
  induction ops with
  | nil => intro ls st; exact .inr rfl
  | cons op ops ih =>
    intro ls st
    simp only [Spec.Prog.plainRun, Spec.Prog.run, bind, Except.bind, pure, Except.pure]
    rcases plainExec_of sl isDel ls st op with ⟨h1, h2⟩ | ⟨-, h2⟩
    · left
      rw [h2]
      refine ⟨?_, rfl⟩
      cases op with
      | createSource k p => exact ⟨k, p, by simp⟩
      | _ => exact absurd h1 id
    · rw [h2]
      cases hq : Spec.Prog.exec sl isDel (ls, st) op with
      | error e => exact .inr rfl
      | ok r =>
        obtain ⟨⟨ls', st'⟩, os⟩ := r
        simp only [Except.map]
        rcases ih ls' st' with ⟨⟨k, p, h3⟩, h4⟩ | h4
        · left
          rw [h4]
          exact ⟨⟨k, p, by simp [h3]⟩, rfl⟩
        · right
          rw [h4]
          cases Spec.Prog.run sl isDel ops (ls', st') with
          | error e => rfl
          | ok r => rfl

/-- The species at the start: empty containers. -/
def start (sl : Nat) (junk : α) (charges : List Bool) : List (Sp α) :=
  charges.map (fun c => ⟨c, CSAP.new sl junk⟩)

theorem start_rel {sl : Nat} (h : 0 < sl) (junk : α) (charges : List Bool) :
    RelAll sl (start sl junk charges) (charges.map (fun c => (⟨c, [], false⟩ : LSp α))) := by
  unfold start
  induction charges with
  | nil => exact .nil
  | cons c cs ih =>
    refine .cons ⟨rfl, rfl, new_inv sl junk h, new_contents sl junk, ?_, ?_, ?_⟩ ih
    · exact le_refl _
    · simp [CSAP.new, CSAP.arr]
    · intro h; exact absurd rfl h

end CppProgram

open CppProgram CppMover
open Spec.Prog (LSp)
variable {σ α : Type}

/-- C81.  Every program with compiled movers and containers that starts with empty containers shows
what the same program on plain lists shows and stops with the same error, with one exception: a source
that adds a particle to a full container whose storage position has run ahead aborts.  What the
specification keeps of the position is a flag: it is set by a loop over a species that is not empty,
and by a mover call after which the container is full and whose last particle is lost.  Afterwards the
containers hold the particles of the lists. -/
theorem C81_run {sl : Nat} (h2 : 2 ≤ sl) (isDel : α → Bool) (junk : α) (charges : List Bool)
    (ops : List (Op σ α)) (hbig : ops.length < 4294967296) (st : σ) :
    match Spec.Prog.run sl isDel ops (charges.map (fun c => ⟨c, [], false⟩), st) with
    | .error e => run isDel ops (start sl junk charges, st) = .error e
    | .ok ((ls, st'), os) => ∃ sps, run isDel ops (start sl junk charges, st) = .ok ((sps, st'), os) ∧
        List.Forall₂ (fun sp l => sp.charged = l.charged ∧ CStores sp.sap l.xs) sps ls := by
  have key := run_rel h2 isDel ops _ _ (start_rel (by omega) junk charges)
    (by
      intro l hl
      obtain ⟨c, -, rfl⟩ := List.mem_map.1 hl
      simpa using hbig) st
  generalize hq : Spec.Prog.run sl isDel ops _ = r at key ⊢
  match r with
  | .error e => exact key
  | .ok ((ls, st'), os) =>
    obtain ⟨sps, e, h⟩ := key
    exact ⟨sps, e, h.imp (fun _ _ hr => ⟨hr.charged, hr.stores⟩)⟩

/-- C81 without sources: such a program cannot be told from one on plain lists, in which a new particle
goes to the end of its list and a mover call replaces every list by the particles that are left. -/
theorem C81_no_sources {sl : Nat} (h2 : 2 ≤ sl) (isDel : α → Bool) (junk : α) (charges : List Bool)
    (ops : List (Op σ α)) (hbig : ops.length < 4294967296)
    (hns : ∀ k p, .createSource k p ∉ ops) (st : σ) :
    match Spec.Prog.plainRun sl isDel ops (charges.map (fun c => (c, [])), st) with
    | .error e => run isDel ops (start sl junk charges, st) = .error e
    | .ok ((ls, st'), os) => ∃ sps, run isDel ops (start sl junk charges, st) = .ok ((sps, st'), os) ∧
        List.Forall₂ (fun sp l => sp.charged = l.1 ∧ CStores sp.sap l.2) sps ls := by
  have key := C81_run h2 isDel junk charges ops hbig st
  have hp := plainRun_of sl isDel ops (charges.map (fun c => (⟨c, [], false⟩ : LSp α))) st
  rcases hp with ⟨⟨k, p, h⟩, -⟩ | hp
  · exact absurd h (hns k p)
  · rw [List.map_map] at hp
    rw [show (charges.map fun c => (c, ([] : List α))) =
      charges.map (plain ∘ fun c => (⟨c, [], false⟩ : LSp α)) from rfl, hp]
    generalize Spec.Prog.run sl isDel ops _ = r at key ⊢
    match r with
    | .error e => exact key
    | .ok ((ls, st'), os) =>
      obtain ⟨sps, e, h⟩ := key
      refine ⟨sps, e, ?_⟩
      simp only
      rw [List.forall₂_map_right_iff]
      exact h

/-- C81 with sources: the only difference a source can make is that the program aborts. -/
theorem C81_sources_partial {sl : Nat} (h2 : 2 ≤ sl) (isDel : α → Bool) (junk : α) (charges : List Bool)
    (ops : List (Op σ α)) (hbig : ops.length < 4294967296) (st : σ) :
    run isDel ops (start sl junk charges, st) = .error .abort ∨
    match Spec.Prog.plainRun sl isDel ops (charges.map (fun c => (c, [])), st) with
    | .error e => run isDel ops (start sl junk charges, st) = .error e
    | .ok ((ls, st'), os) => ∃ sps, run isDel ops (start sl junk charges, st) = .ok ((sps, st'), os) ∧
        List.Forall₂ (fun sp l => sp.charged = l.1 ∧ CStores sp.sap l.2) sps ls := by
  have key := C81_run h2 isDel junk charges ops hbig st
  have hp := plainRun_of sl isDel ops (charges.map (fun c => (⟨c, [], false⟩ : LSp α))) st
  rcases hp with ⟨-, hp⟩ | hp
  · left
    rw [hp] at key
    exact key
  · right
    rw [List.map_map] at hp
    rw [show (charges.map fun c => (c, ([] : List α))) =
      charges.map (plain ∘ fun c => (⟨c, [], false⟩ : LSp α)) from rfl, hp]
    generalize Spec.Prog.run sl isDel ops _ = r at key ⊢
    match r with
    | .error e => exact key
    | .ok ((ls, st'), os) =>
      obtain ⟨sps, e, h⟩ := key
      refine ⟨sps, e, ?_⟩
      simp only
      rw [List.forall₂_map_right_iff]
      exact h

/-! ### Examples -/

/-- A mover that loses the negative numbers and adds one to the others, counting in the state. -/
def progCore : Nat → Adv Nat Int := fun k st _ _ _ p => .ok (st + 1, p + 1 + k, decide (0 ≤ p))

/-- The program was aborted. -/
def aborts {β : Type} : Except Err β → Bool
  | .error .abort => true
  | _ => false

/-- Create three particles of species 0 from a list, move, look, create another one. -/
def progOps : List (Op Nat Int) :=
  [.createList 0 1, .createList 0 (-2), .createList 1 7, .createList 0 3, .advance true progCore,
   .look 0, .createList 0 5, .advance false progCore, .look 0, .look 1]

-- C81: the hypotheses hold for the demo, and the program does something.
example : (2 ≤ 2) ∧ progOps.length < 4294967296 ∧ (∀ k p, .createSource k p ∉ progOps) ∧
    ((Spec.Prog.plainRun 2 (fun _ => false) progOps ([true, false].map (fun c => (c, [])), 0)).toOption.map
      fun r => (r.1, r.2.drop 4)) =
      some (([(true, [2, 4, 5]), (false, [9])], 4),
        [.items [2, 4], .created 0 2 5, .items [2, 4, 5], .items [9]]) := by
  refine ⟨le_refl _, by decide, by simp [progOps], by decide⟩

/-- C81 is false for sources: after a loop over a full container a source aborts, while the same
particle from a list is stored. -/
theorem C81_false_source_after_loop :
    aborts (run (fun _ => false) [.createSource 0 1, .createSource 0 2, .look 0, .createSource 0 3]
      (start 2 (0 : Int) [true], ())) = true ∧
    ((run (fun _ => false) [.createSource 0 1, .createSource 0 2, .look 0, .createList 0 3]
      (start 2 (0 : Int) [true], ())).toOption.map Prod.snd) =
      some [.created 0 0 1, .created 1 1 2, .items [1, 2], .created 0 2 3] := by
  decide

/-- C81 is false for sources: a mover call that leaves the container full and loses the last particle
makes the source of the same time step abort. -/
theorem C81_false_source_after_loss :
    aborts (run (fun _ => false) [.createSource 0 1, .createSource 0 2, .createSource 0 (-3),
      .advance true progCore, .createSource 0 3] (start 2 (0 : Int) [true], 0)) = true ∧
    ((run (fun _ => false) [.createSource 0 1, .createSource 0 (-3), .createSource 0 2,
      .advance true progCore, .createSource 0 3] (start 2 (0 : Int) [true], 0)).toOption.map
        fun r => r.2.drop 3) = some [.created 0 2 3] := by
  decide

end Dt
