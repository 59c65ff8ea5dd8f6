import Verif.Spec.TimeLoop
import Verif.Lemmas.SAPClient
import Verif.Lemmas.MoverPost
import Verif.Lemmas.MoverReach
import Verif.Lemmas.Field
import Verif.Props.Output
import Verif.Props.Species

/-! # The time loop on containers and on lists of particles -/

set_option linter.unusedSectionVars false

namespace Dt
namespace TimeLoop
open SAP (Reachable Sim)
open Spec (LState Pop Ideal Fault)
variable {K V α σ φ : Type}

/-! ### Read loops only move the cursor -/

/-- The cursor after a complete read loop. -/
def endOf (s : SAP α) : Int := if s.contents = [] then 0 else SAP.endCur s.outA

/-- `t` is `s` after any number of read loops. -/
def Stay (s t : SAP α) : Prop := t = s ∨ t = s.withCur (endOf s)

theorem endOf_withCur (s : SAP α) (c : Int) : endOf (s.withCur c) = endOf s := by
  simp [endOf, SAP.endCur]

theorem Stay.refl (s : SAP α) : Stay s s := .inl rfl

theorem Stay.trans {s t u : SAP α} (h : Stay s t) (k : Stay t u) : Stay s u := by
  rcases h with rfl | rfl
  · exact k
  · rcases k with rfl | rfl
    · exact .inr rfl
    · refine .inr ?_
      rw [endOf_withCur, SAP.withCur_withCur]

theorem outLoop_end {τ : Type} {s t : SAP α} (hr : Reachable s) (f : τ → List α → Except Err τ)
    {x y : τ} (e : s.outLoop (SAP.readBody f) x = .ok (t, y)) : t = s.withCur (endOf s) := by
  have hi := SAP.reachable_inv hr
  rw [SAP.outLoop_read f x (SAP.readLoop_ok hi.out)] at e
  cases hq : (Spec.chunk s.sl s.contents).foldlM f x with
  | error _ => rw [hq] at e; simp [Except.map] at e
  | ok r =>
    rw [hq] at e
    simp only [Except.map, Except.ok.injEq, Prod.mk.injEq] at e
    exact e.1.symm

theorem outLoop_stay {τ : Type} {s t : SAP α} (hr : Reachable s) (f : τ → List α → Except Err τ)
    {x y : τ} (e : s.outLoop (SAP.readBody f) x = .ok (t, y)) : Stay s t :=
  .inr (outLoop_end hr f e)

theorem reach_end {s : SAP α} (hr : Reachable s) : Reachable (s.withCur (endOf s)) := by
  have hi := SAP.reachable_inv hr
  have e := SAP.outLoop_read (fun (_ : Unit) (_ : List α) => .ok ()) () (SAP.readLoop_ok hi.out)
  have hf : ∀ ps : List (List α), ps.foldlM (fun (_ : Unit) (_ : List α) => (.ok () : Except Err Unit)) ()
      = .ok () := by
    intro ps
    induction ps with
    | nil => rfl
    | cons p ps ih => rw [List.foldlM_cons]; exact ih
  rw [hf] at e
  exact Species.outLoop_reachable _ (Species.readBody_reachable _) hr e

theorem Stay.reach {s t : SAP α} (h : Stay s t) (hr : Reachable s) : Reachable t := by
  rcases h with rfl | rfl
  · exact hr
  · exact reach_end hr

/-- A container of segment length `sl` and a population. -/
structure Holds (sl : Nat) (s : SAP α) (st : LState α) : Prop where
  reach : Reachable s
  sim : Sim s st
  sl : s.sl = sl

theorem Holds.stores {sl : Nat} {s : SAP α} {st : LState α} (h : Holds sl s st) :
    Spec.Stores s st.items := by
  rw [← h.sim.items]; exact SAP.stores_contents h.sim.inv

theorem sim_end {s : SAP α} {st : LState α} (h : Sim s st) :
    Sim (s.withCur (endOf s)) ⟨st.items, decide (st.items ≠ [])⟩ := by
  have := SAP.sim_step h .readAll
  simp only [LState.step] at this
  obtain ⟨s', e, hs, _⟩ := this
  simp only [SAP.call, SAP.readLoop_ok h.inv.out, bind, Except.bind, pure, Except.pure,
    Except.ok.injEq, Prod.mk.injEq] at e
  rw [← e.1] at hs
  exact hs

theorem Holds.atEnd {sl : Nat} {s : SAP α} {st : LState α} (h : Holds sl s st) :
    Holds sl (s.withCur (endOf s)) ⟨st.items, decide (st.items ≠ [])⟩ :=
  ⟨reach_end h.reach, sim_end h.sim, by rw [SAP.withCur_sl]; exact h.sl⟩

theorem Holds.stay {sl : Nat} {s t : SAP α} {st : LState α} (h : Holds sl s st) (k : Stay s t) :
    ∃ b, Holds sl t ⟨st.items, b⟩ := by
  rcases k with rfl | rfl
  · exact ⟨st.stale, h⟩
  · exact ⟨_, h.atEnd⟩

theorem Holds.stay_looked {sl : Nat} {s t : SAP α} {xs : List α}
    (h : Holds sl s ⟨xs, decide (xs ≠ [])⟩) (k : Stay s t) : Holds sl t ⟨xs, decide (xs ≠ [])⟩ := by
  rcases k with rfl | rfl
  · exact h
  · exact h.atEnd

/-! ### Agreement of a computation with the specification -/

/-- The specification gives a result: so does the code, and they are related.  It raises: so does the
code.  Otherwise it says nothing. -/
def Agree {A B : Type} (P : A → B → Prop) : Except Fault A → Except Err B → Prop
  | .ok a, r => ∃ b, r = .ok b ∧ P a b
  | .error (.raises e), r => r = .error e
  | .error _, _ => True

theorem pushAll_agree {sl : Nat} {s : SAP α} {st : LState α} (h : Holds sl s st) (xs : List α) :
    Agree (fun st' r => Holds sl r.1 st') (st.appendAll sl xs) (s.pushAll xs) := by
  induction xs generalizing s st with
  | nil => exact ⟨(s, []), rfl, h⟩
  | cons x xs ih =>
    have key := SAP.sim_step h.sim (.push x)
    simp only [LState.step, h.sl] at key
    simp only [LState.appendAll]
    by_cases hc : st.stale = true ∧ st.items ≠ [] ∧ st.items.length % sl = 0
    · rw [if_pos hc] at key ⊢
      simp only [SAP.call, bind, Except.bind, pure, Except.pure] at key
      simp only [Agree, SAP.pushAll, bind, Except.bind]
      cases hp : s.pushBack x with
      | error e => rw [hp] at key; simpa using key
      | ok r => rw [hp] at key; simp at key
    · rw [if_neg hc] at key ⊢
      obtain ⟨s', e, hs, hsl⟩ := key
      simp only [SAP.call, bind, Except.bind, pure, Except.pure] at e
      cases hp : s.pushBack x with
      | error _ => rw [hp] at e; simp at e
      | ok r =>
        rw [hp] at e
        simp only [Except.ok.injEq, Prod.mk.injEq] at e
        obtain ⟨s1, r1⟩ := r
        obtain ⟨rfl, _⟩ := e
        have := ih (s := s1) (st := ⟨st.items ++ [x], st.stale⟩)
          ⟨.push h.reach hp, hs, hsl⟩
        simp only [SAP.pushAll, hp, bind, Except.bind, pure, Except.pure]
        cases ha : LState.appendAll sl ⟨st.items ++ [x], st.stale⟩ xs with
        | ok st' =>
          rw [ha] at this
          obtain ⟨b, e2, h2⟩ := this
          rw [e2]
          exact ⟨_, rfl, h2⟩
        | error f =>
          rw [ha] at this
          cases f with
          | raises e => simp only [Agree] at this ⊢; rw [this]
          | allLost => trivial
          | offMesh => trivial

/-! ### Species -/

/-- A species of the program and of the specification; its fields have `D` and `C` entries. -/
structure RelSp (sl D C : Nat) (sp : Sp K V α) (p : Pop K V α) : Prop where
  name : sp.name = p.name
  charge : sp.charge = p.charge
  mass : sp.mass = p.mass
  index : sp.index = p.index
  holds : Holds sl sp.sap p.st
  dof : sp.dof.length = D
  cell : sp.cell.length = C

theorem tidy_of_full {s : SAP α} (hi : s.Inv)
    (hf : s.outA.fao = s.sl ↔ s.contents.length % s.sl = 0) : 0 < s.outA.fnf → 0 < s.outA.fao := by
  intro _
  obtain ⟨f, o, hff, ho, hfl, hol, hfl2, hle⟩ := hi.out.total
  have hl : s.contents.length = f * s.sl + o := by
    have := hi.out.items_length
    rw [hff, ho] at this
    exact_mod_cast this
  have hpos := hi.out.pos
  rw [ho] at hf ⊢
  by_contra hc
  have h0 : o = 0 := by omega
  subst h0
  rw [hl] at hf
  have := hf.2 (by simp)
  omega

variable [Field K] [DecidableEq K]

theorem meshStep_agree {sl : Nat} (adv : Adv σ α) {s : SAP α} {st : LState α} (h : Holds sl s st)
    (side : σ) :
    match (if st.items = [] then (.ok (st, side) : Except Fault _) else
      match Spec.pass adv side 0 0 st.items with
      | .error e => .error (.raises e)
      | .ok (_, []) => .error .allLost
      | .ok (side', y :: ys) => .ok (⟨y :: ys, decide ((y :: ys).length % sl = 0 ∧
          Spec.lastFlag adv side 0 0 st.items = some false)⟩, side')) with
    | .ok (st', side') => ∃ t, Mover.meshStep adv s side = .ok (t, side') ∧ Holds sl t st'
    | .error (.raises e) => Mover.meshStep adv s side = .error e
    | .error _ => True := by
  have hcount := SAP.contents_length h.sim.inv
  rw [h.sim.items] at hcount
  by_cases h0 : st.items = []
  · rw [if_pos h0]
    rw [h0] at hcount
    refine ⟨s, ?_, h⟩
    unfold Mover.meshStep
    rw [if_pos (by simpa using hcount.symm)]
  · rw [if_neg h0]
    have hne : s.getNumberOfItems ≠ 0 := by
      rw [← hcount]
      intro hc
      exact h0 (List.length_eq_zero_iff.1 (by exact_mod_cast hc))
    have hms : Mover.meshStep adv s side = Mover.meshPass adv s side := by
      unfold Mover.meshStep; rw [if_neg hne]
    have hcne : s.contents ≠ [] := by rw [h.sim.items]; exact h0
    have key := Mover.meshPass_post adv h.sim.inv hcne side
    rw [h.sim.items] at key
    rw [hms]
    cases hp : Spec.pass adv side 0 0 st.items with
    | error e => rw [hp] at key; exact key
    | ok r =>
      obtain ⟨side', ys⟩ := r
      rw [hp] at key
      cases ys with
      | nil => trivial
      | cons y ys =>
        obtain ⟨t, e, post⟩ := key
        obtain ⟨hti, htc⟩ := post.inv (by simp)
        have hsl : t.sl = sl := by rw [post.sl, h.sl]
        refine ⟨t, e, ?_, ⟨hti, htc, ?_, ?_⟩, hsl⟩
        · refine Mover.meshPass_reach h.reach hcne e ?_
          rw [post.count]
          simp only [List.length_cons, ne_eq]
          omega
        · have hs := post.sync (by simp)
          rw [h.sl] at hs
          simp only
          apply decide_eq_decide.2
          unfold SAP.Synced at hs
          constructor
          · intro hd hc
            exact (hs.1 hc) hd
          · intro hd
            by_contra hn
            exact hd (hs.2 hn)
        · refine tidy_of_full hti ?_
          rw [htc, post.sl]
          exact post.full (by simp)

/-- All charged species are advanced. -/
theorem advance_agree {sl D C : Nat} (mv : String → Adv σ α) {sps : List (Sp K V α)}
    {pops : List (Pop K V α)} (h : List.Forall₂ (RelSp sl D C) sps pops) (side : σ) :
    Agree (fun a b => List.Forall₂ (RelSp sl D C) b.1 a.1 ∧ b.2 = a.2)
      (Spec.moveAll sl mv pops side) (advanceCharged mv sps side) := by
  induction h generalizing side with
  | nil => exact ⟨_, rfl, .nil, rfl⟩
  | @cons sp p sps pops hd htl ih =>
    have hmove : Agree (fun a b => Holds sl b.1 a.1.st ∧ b.2 = a.2 ∧ a.1 = { p with st := a.1.st })
        (Spec.movePop sl mv p side)
        (advanceOne mv sp side) := by
      have key := meshStep_agree (mv sp.name) hd.holds side
      unfold Spec.movePop
      by_cases hq : p.charge = 0
      · rw [if_pos (Or.inl hq)]
        refine ⟨(sp.sap, side), ?_, hd.holds, rfl, rfl⟩
        unfold advanceOne
        rw [if_pos (by rw [hd.charge]; exact hq)]
      · have hadv : advanceOne mv sp side = Mover.meshStep (mv sp.name) sp.sap side := by
          unfold advanceOne
          rw [if_neg (by rw [hd.charge]; exact hq)]
        rw [hadv]
        by_cases h0 : p.st.items = []
        · rw [if_pos h0] at key
          rw [if_pos (Or.inr h0)]
          obtain ⟨t, e, ht⟩ := key
          exact ⟨_, e, ht, rfl, rfl⟩
        · rw [if_neg h0] at key
          rw [if_neg (by tauto), ← hd.name]
          cases hp : Spec.pass (mv sp.name) side 0 0 p.st.items with
          | error e => rw [hp] at key; exact key
          | ok r =>
            obtain ⟨side', ys⟩ := r
            rw [hp] at key
            cases ys with
            | nil => trivial
            | cons y ys =>
              obtain ⟨t, e, ht⟩ := key
              exact ⟨_, e, ht, rfl, rfl⟩
    simp only [Spec.moveAll, advanceCharged]
    cases hm : Spec.movePop sl mv p side with
    | error f =>
      rw [hm] at hmove
      cases f with
      | raises e =>
        simp only [Agree] at hmove ⊢
        rw [hmove]; rfl
      | allLost => trivial
      | offMesh => trivial
    | ok r =>
      obtain ⟨p', side'⟩ := r
      rw [hm] at hmove
      obtain ⟨⟨t, s2⟩, e, h1, h2, h3⟩ := hmove
      simp only at h1 h2 h3
      subst h2
      rw [e]
      have := ih s2
      simp only [bind, Except.bind, pure, Except.pure]
      cases hr : Spec.moveAll sl mv pops s2 with
      | error f =>
        rw [hr] at this
        cases f with
        | raises e => simp only [Agree] at this ⊢; rw [this]
        | allLost => trivial
        | offMesh => trivial
      | ok r2 =>
        rw [hr] at this
        obtain ⟨b, e2, h4, h5⟩ := this
        rw [e2]
        refine ⟨_, rfl, .cons ?_ h4, h5⟩
        rw [h3]
        exact ⟨hd.name, hd.charge, hd.mass, hd.index, h1, hd.dof, hd.cell⟩

theorem pushTo_agree {sl D C : Nat} (name : String) (xs : List α) {sps : List (Sp K V α)}
    {pops : List (Pop K V α)} (h : List.Forall₂ (RelSp sl D C) sps pops) :
    Agree (fun a b => List.Forall₂ (RelSp sl D C) b a) (Spec.appendTo sl name xs pops)
      (pushTo name xs sps) := by
  induction h with
  | nil => rfl
  | @cons sp p sps pops hd htl ih =>
    simp only [Spec.appendTo, pushTo]
    by_cases hn : p.name = name
    · rw [if_pos hn, if_pos (hd.name.trans hn)]
      have key := pushAll_agree hd.holds xs
      cases ha : p.st.appendAll sl xs with
      | error f =>
        rw [ha] at key
        cases f with
        | raises e => simp only [Agree] at key ⊢; rw [key]; rfl
        | allLost => trivial
        | offMesh => trivial
      | ok st' =>
        rw [ha] at key
        obtain ⟨b, e, hb⟩ := key
        rw [e]
        exact ⟨_, rfl, .cons ⟨hd.name, hd.charge, hd.mass, hd.index, hb, hd.dof, hd.cell⟩ htl⟩
    · rw [if_neg hn, if_neg (by rw [hd.name]; exact hn)]
      cases ha : Spec.appendTo sl name xs pops with
      | error f =>
        rw [ha] at ih
        cases f with
        | raises e => simp only [Agree] at ih ⊢; rw [ih]; rfl
        | allLost => trivial
        | offMesh => trivial
      | ok ps' =>
        rw [ha] at ih
        obtain ⟨b, e, hb⟩ := ih
        rw [e]
        exact ⟨_, rfl, .cons hd hb⟩

theorem addMore_agree {sl D C : Nat} (count : Int) (time : K) (srcs : List (Src K α σ))
    {sps : List (Sp K V α)} {pops : List (Pop K V α)} (h : List.Forall₂ (RelSp sl D C) sps pops)
    (side : σ) :
    Agree (fun a b => List.Forall₂ (RelSp sl D C) b.1 a.1 ∧ b.2 = a.2)
      (Spec.createAll sl count time srcs pops side)
      (Sources.addMore (srcs.map Src.source) count time (sps, side)) := by
  induction srcs generalizing sps pops side with
  | nil => exact ⟨_, rfl, h, rfl⟩
  | cons s srcs ih =>
    simp only [Spec.createAll, Sources.addMore, List.map_cons, List.foldlM_cons]
    have hstep : ∀ w : List (Sp K V α) × σ, Sources.sourceStep count time w s.source =
        if s.interval = 0 then .error .zerodiv
        else if count.fmod s.interval = 0 then s.source.fire count time w else .ok w := fun _ => rfl
    rw [hstep]
    by_cases h0 : s.interval = 0
    · rw [if_pos h0, if_pos h0]; rfl
    · rw [if_neg h0, if_neg h0]
      by_cases h1 : count.fmod s.interval = 0
      · rw [if_pos h1, if_pos h1]
        simp only [Src.source]
        cases hm : s.make count time side with
        | error e => rfl
        | ok r =>
          obtain ⟨side', xs⟩ := r
          simp only [bind, Except.bind]
          have key := pushTo_agree s.species xs h
          cases ha : Spec.appendTo sl s.species xs pops with
          | error f =>
            rw [ha] at key
            cases f with
            | raises e => simp only [Agree] at key ⊢; rw [key]
            | allLost => trivial
            | offMesh => trivial
          | ok ps' =>
            rw [ha] at key
            obtain ⟨b, e, hb⟩ := key
            rw [e]
            exact ih hb side'
      · rw [if_neg h1, if_neg h1]
        exact ih h side

theorem pushInitial_agree {sl D C : Nat} (groups : List (String × List α))
    {sps : List (Sp K V α)} {pops : List (Pop K V α)} (h : List.Forall₂ (RelSp sl D C) sps pops) :
    Agree (fun a b => List.Forall₂ (RelSp sl D C) b a) (Spec.appendGroups sl groups pops)
      (pushInitial groups sps) := by
  induction groups generalizing sps pops with
  | nil => exact ⟨_, rfl, h⟩
  | cons g groups ih =>
    simp only [Spec.appendGroups, pushInitial, List.foldlM_cons]
    have key := pushTo_agree g.1 g.2 h
    cases ha : Spec.appendTo sl g.1 g.2 pops with
    | error f =>
      rw [ha] at key
      cases f with
      | raises e => simp only [Agree] at key ⊢; rw [key]; rfl
      | allLost => trivial
      | offMesh => trivial
    | ok ps' =>
      rw [ha] at key
      obtain ⟨b, e, hb⟩ := key
      rw [e]
      exact ih hb

/-! ### The particle file -/

/-- A species after read loops, as seen by the writer. -/
def StayO (sp sp' : Output.Species α V) : Prop := Stay sp.sap sp'.sap ∧ sp'.index = sp.index

theorem fillSpecies_stay {col : Output.Col α V} {sp sp' : Output.Species α V} {x y : List V × Nat}
    (hr : Reachable sp.sap) (e : Output.fillSpecies col sp x = .ok (sp', y)) : StayO sp sp' := by
  unfold Output.fillSpecies at e
  split at e
  · simp only [Except.ok.injEq, Prod.mk.injEq] at e
    rw [← e.1]; exact ⟨.refl _, rfl⟩
  · cases col with
    | speciesIndex =>
      simp only [Except.ok.injEq, Prod.mk.injEq] at e
      rw [← e.1]; exact ⟨.refl _, rfl⟩
    | field get num =>
      simp only [bind, Except.bind] at e
      split at e
      · cases e
      · rename_i r hq
        obtain ⟨s', st'⟩ := r
        simp only [pure, Except.pure, Except.ok.injEq, Prod.mk.injEq] at e
        rw [← e.1]
        exact ⟨outLoop_stay hr _ hq, rfl⟩
    | missing => cases e

theorem fillAll_stay {col : Output.Col α V} {sps sps' : List (Output.Species α V)} {x y : List V × Nat}
    (hr : ∀ sp ∈ sps, Reachable sp.sap) (e : Output.fillAll col sps x = .ok (sps', y)) :
    List.Forall₂ StayO sps sps' := by
  induction sps generalizing sps' x y with
  | nil =>
    simp only [Output.fillAll, Except.ok.injEq, Prod.mk.injEq] at e
    rw [← e.1]; exact .nil
  | cons sp sps ih =>
    simp only [Output.fillAll, bind, Except.bind] at e
    split at e
    · cases e
    · rename_i r hq
      split at e
      · cases e
      · rename_i r2 hq2
        simp only [pure, Except.pure, Except.ok.injEq, Prod.mk.injEq] at e
        rw [← e.1]
        exact .cons (fillSpecies_stay (hr sp (by simp)) hq)
          (ih (fun sp h => hr sp (List.mem_cons_of_mem _ h)) hq2)

theorem stayO_refl (sps : List (Output.Species α V)) : List.Forall₂ StayO sps sps := by
  induction sps with
  | nil => exact .nil
  | cons sp sps ih => exact .cons ⟨.refl _, rfl⟩ ih

theorem stayO_trans {a b c : List (Output.Species α V)} (h : List.Forall₂ StayO a b)
    (k : List.Forall₂ StayO b c) : List.Forall₂ StayO a c := by
  induction h generalizing c with
  | nil => exact k
  | cons hd htl ih =>
    cases k with
    | cons kd ktl => exact .cons ⟨hd.1.trans kd.1, kd.2.trans hd.2⟩ (ih ktl)

theorem stayO_reach {a b : List (Output.Species α V)} (h : List.Forall₂ StayO a b)
    (hr : ∀ sp ∈ a, Reachable sp.sap) : ∀ sp ∈ b, Reachable sp.sap := by
  induction h with
  | nil => simp
  | cons hd htl ih =>
    intro sp hsp
    rcases List.mem_cons.1 hsp with rfl | hsp
    · exact hd.1.reach (hr _ (by simp))
    · exact ih (fun sp h => hr sp (List.mem_cons_of_mem _ h)) sp hsp

theorem columns_stay {T : Type} {attrs : List (Output.Attr α V)} {w w' : Output.Writer V T}
    {sps sps' : List (Output.Species α V)} {r : Option Err} (hr : ∀ sp ∈ sps, Reachable sp.sap)
    (e : Output.columns attrs w sps = (w', sps', r)) : List.Forall₂ StayO sps sps' := by
  induction attrs generalizing w w' sps sps' r with
  | nil =>
    simp only [Output.columns, Prod.mk.injEq] at e
    rw [← e.2.1]; exact stayO_refl _
  | cons a attrs ih =>
    simp only [Output.columns] at e
    split at e
    · simp only [Prod.mk.injEq] at e
      rw [← e.2.1]; exact stayO_refl _
    · rename_i sps1 buf1 data1 hcol
      have h1 : List.Forall₂ StayO sps sps1 := by
        simp only [Output.column, bind, Except.bind] at hcol
        split at hcol
        · cases hcol
        · split at hcol
          · cases hcol
          · rename_i r2 hq2
            simp only [pure, Except.pure, Except.ok.injEq, Prod.mk.injEq] at hcol
            rw [← hcol.1]
            exact fillAll_stay hr hq2
      split at e
      · simp only [Prod.mk.injEq] at e
        rw [← e.2.1]; exact h1
      · exact stayO_trans h1 (ih (stayO_reach h1 hr) e)

theorem write_stay {T : Type} {attrs : List (Output.Attr α V)} {junk : V} {w w' : Output.Writer V T}
    {sps sps' : List (Output.Species α V)} {n : Int} {t : T} {close : Bool} {r : Option Err}
    (hr : ∀ sp ∈ sps, Reachable sp.sap)
    (e : Output.write attrs junk w sps n t close = (w', sps', r)) : List.Forall₂ StayO sps sps' := by
  unfold Output.write at e
  split at e
  · simp only [Prod.mk.injEq] at e
    rw [← e.2.1]; exact stayO_refl _
  · split at e
    · simp only [Prod.mk.injEq] at e
      rw [← e.2.1]; exact stayO_refl _
    · dsimp only at e
      split at e
      · rename_i w2 sps2 e2 hc
        simp only [Prod.mk.injEq] at e
        rw [← e.2.1]; exact columns_stay hr hc
      · rename_i w2 sps2 hc
        simp only [Prod.mk.injEq] at e
        rw [← e.2.1]; exact columns_stay hr hc

/-- A species that may have been read since. -/
def RelSp' (sl D C : Nat) (sp : Sp K V α) (p : Pop K V α) : Prop :=
  ∃ b, RelSp sl D C sp { p with st := ⟨p.st.items, b⟩ }

theorem RelSp.weak {sl D C : Nat} {sp : Sp K V α} {p : Pop K V α} (h : RelSp sl D C sp p) :
    RelSp' sl D C sp p := ⟨p.st.stale, h⟩

theorem putSaps_weak {sl D C : Nat} {sps : List (Sp K V α)} {pops : List (Pop K V α)}
    (h : List.Forall₂ (RelSp' sl D C) sps pops) {saps : List (SAP α)}
    (k : List.Forall₂ (fun (sp : Sp K V α) t => Stay sp.sap t) sps saps) :
    List.Forall₂ (RelSp' sl D C) (putSaps sps saps) pops := by
  induction h generalizing saps with
  | nil => cases k; exact .nil
  | cons hd htl ih =>
    cases k with
    | cons kd ktl =>
      refine .cons ?_ (ih ktl)
      obtain ⟨b, hb⟩ := hd
      obtain ⟨b', hb'⟩ := hb.holds.stay kd
      exact ⟨b', hb.name, hb.charge, hb.mass, hb.index, hb', hb.dof, hb.cell⟩

theorem putSaps_looked {sl D C : Nat} {sps : List (Sp K V α)} {pops : List (Pop K V α)}
    (h : List.Forall₂ (RelSp sl D C) sps (pops.map Spec.looked)) {saps : List (SAP α)}
    (k : List.Forall₂ (fun (sp : Sp K V α) t => Stay sp.sap t) sps saps) :
    List.Forall₂ (RelSp sl D C) (putSaps sps saps) (pops.map Spec.looked) := by
  induction pops generalizing sps saps with
  | nil => cases h; cases k; exact .nil
  | cons p pops ih =>
    rw [List.map_cons] at h ⊢
    cases h with
    | cons hd htl =>
      cases k with
      | cons kd ktl =>
        refine .cons ?_ (ih htl ktl)
        exact ⟨hd.name, hd.charge, hd.mass, hd.index, hd.holds.stay_looked kd, hd.dof, hd.cell⟩

/-- The particles of populations with their species numbers. -/
def filed (pops : List (Pop K V α)) : List (V × List α) := pops.map (fun p => (p.index, p.st.items))

theorem held_of_rel {sl D C : Nat} {sps : List (Sp K V α)} {pops : List (Pop K V α)}
    (h : List.Forall₂ (RelSp' sl D C) sps pops) :
    List.Forall₂ Spec.Held (sps.map (fun sp => (⟨sp.sap, sp.index⟩ : Output.Species α V)))
      (filed pops) := by
  induction h with
  | nil => exact .nil
  | cons hd htl ih =>
    obtain ⟨b, hb⟩ := hd
    exact .cons ⟨hb.index, .inl ⟨hb.holds.reach, hb.holds.stores⟩⟩ ih

theorem reach_of_rel {sl D C : Nat} {sps : List (Sp K V α)} {pops : List (Pop K V α)}
    (h : List.Forall₂ (RelSp' sl D C) sps pops) : ∀ sp ∈ sps, Reachable sp.sap := by
  induction h with
  | nil => simp
  | cons hd htl ih =>
    obtain ⟨b, hb⟩ := hd
    intro sp hsp
    rcases List.mem_cons.1 hsp with rfl | hsp
    · exact hb.holds.reach
    · exact ih sp hsp

theorem stay_saps {sps : List (Sp K V α)} {os : List (Output.Species α V)}
    (h : List.Forall₂ StayO (sps.map (fun sp => (⟨sp.sap, sp.index⟩ : Output.Species α V))) os) :
    List.Forall₂ (fun (sp : Sp K V α) t => Stay sp.sap t) sps (os.map (·.sap)) := by
  induction sps generalizing os with
  | nil => cases h; exact .nil
  | cons sp sps ih =>
    rw [List.map_cons] at h
    cases h with
    | cons hd htl => exact .cons hd.1 (ih htl)

theorem writeFile_ok {cfg : Cfg K V α σ φ} (ha : GoodAttrs cfg.attrs) {sl D C : Nat}
    {st : State K V α σ φ} {pops : List (Pop K V α)}
    (h : List.Forall₂ (RelSp' sl D C) st.sps pops) {w : Output.Writer V K} (hw : st.writer = some w)
    (hr : w.Ready) (hne : st.count ≠ w.lastStep) (close : Bool) :
    ∃ w' sps' cols, writeFile cfg close st = .ok { st with writer := some w', sps := sps' } ∧
      List.Forall₂ (RelSp' sl D C) sps' pops ∧
      w'.file.groups = w.file.groups ++ [⟨w.counter, st.time, cols⟩] ∧
      GroupOf cfg.attrs ⟨st.count, st.time, filed pops⟩ ⟨w.counter, st.time, cols⟩ ∧
      w'.lastStep = st.count ∧ w'.file.isOpen = !close ∧ (close = false → w'.Ready) := by
  obtain ⟨w', os, cols, e, h1, h2, _, _, h4, h5, h6, _⟩ := C41_file_holds_particles cfg.attrs ha
    cfg.junk hr (held_of_rel h) st.count hne st.time close
  have hreach : ∀ sp ∈ st.sps.map (fun sp => (⟨sp.sap, sp.index⟩ : Output.Species α V)),
      Reachable sp.sap := by
    intro sp hsp
    obtain ⟨q, hq, rfl⟩ := List.mem_map.1 hsp
    exact reach_of_rel h q hq
  refine ⟨w', putSaps st.sps (os.map (·.sap)), cols, ?_,
    putSaps_weak h (stay_saps (write_stay hreach e)), h1, ⟨rfl, h2⟩, h4, h5, h6⟩
  unfold writeFile
  rw [hw]
  dsimp only
  rw [e]

theorem writeFile_same {cfg : Cfg K V α σ φ} {st : State K V α σ φ} {w : Output.Writer V K}
    (hw : st.writer = some w) (he : st.count = w.lastStep) (close : Bool) :
    writeFile cfg close st = .ok { st with sps := putSaps st.sps (st.sps.map (·.sap)) } := by
  unfold writeFile Output.write
  rw [hw]
  dsimp only
  rw [if_pos he]
  simp [Function.comp_def]

/-! ### Densities -/

theorem due_ok {every : Option Int} (h : every ≠ some 0) (count : Int) :
    due every count = .ok (Spec.isDue every count) := by
  cases every with
  | none => rfl
  | some k =>
    have : k ≠ 0 := fun hc => h (by rw [hc])
    simp only [due, if_neg this, Spec.isDue]

/-- What the theorems require of the fields: `onMesh` particles have a cell and fit into the DOF
field with `D` entries; the cell field has one DOF per cell. -/
structure GoodMesh (cfg : Cfg K V α σ φ) (onMesh : α → Bool) (d : Nat → Nat) (D C : Nat) : Prop where
  fits : ∀ p, onMesh p = true → Spec.Fits cfg.A cfg.SD D p
  cell : ∀ p, onMesh p = true → cfg.A.cell p < cfg.ncell
  cells : Spec.CellField cfg.SC d cfg.ncell C

theorem accumulate_one {cfg : Cfg K V α σ φ} {onMesh : α → Bool} {d : Nat → Nat} {sl D C : Nat}
    (hm : GoodMesh cfg onMesh d D C) {s : SAP α} {st : LState α} (h : Holds sl s st)
    (hon : st.items.all onMesh = true) :
    ∃ cell', Fld.accumulate cfg.A cfg.SD cfg.SC cfg.vol cfg.ncell s (some (List.replicate D 0))
        (some (List.replicate C 0)) = .ok (s.withCur (endOf s),
          (some ((List.range D).map (fun j => (st.items.map (Spec.contrib cfg.A cfg.SD j)).sum)),
            some cell')) ∧ cell'.length = C ∧
      ∀ k < cfg.ncell, cell'.getD (d k) 0 =
        ((st.items.filter (fun p => cfg.A.cell p = k)).map cfg.A.weight).sum / cfg.vol k := by
  have hon' : ∀ p ∈ st.items, onMesh p = true := by simpa using hon
  have hc : ∀ p ∈ st.items, cfg.A.cell p < cfg.ncell := fun p hp => hm.cell p (hon' p hp)
  obtain ⟨c, e⟩ := Fld.accumulate_ok (A := cfg.A) (SD := cfg.SD) (SC := cfg.SC) h.reach h.stores
    cfg.vol cfg.ncell (some (List.replicate D (0 : K))) (some (List.replicate C (0 : K)))
    (by rintro v hv p hp
        cases hv
        simpa using hm.fits p (hon' p hp))
    (by rintro w hw p hp i hi
        cases hw
        rw [hm.cells.one _ (hc p hp)] at hi
        simp only [List.mem_singleton] at hi
        rw [List.length_replicate, hi]
        exact hm.cells.range _ (hc p hp))
    (by rintro w hw k hk i hi
        cases hw
        rw [hm.cells.one k hk] at hi
        simp only [List.mem_singleton] at hi
        rw [List.length_replicate, hi]
        exact hm.cells.range k hk)
  have hcur : s.withCur c = s.withCur (endOf s) := by
    have e' := e
    simp only [Fld.accumulate, bind, Except.bind] at e'
    split at e'
    · cases e'
    · rename_i r hq
      obtain ⟨t, y1, y2⟩ := r
      have := outLoop_end h.reach _ hq
      rw [← this]
      cases y2 with
      | none =>
        simp only [pure, Except.pure, Except.ok.injEq, Prod.mk.injEq] at e'
        exact e'.1.symm
      | some v =>
        cases hdv : Fld.divideByVolumes cfg.SC cfg.vol cfg.ncell v with
        | error _ => simp [hdv, Except.map] at e'
        | ok v' =>
          simp only [hdv, Except.map, pure, Except.pure, Except.ok.injEq, Prod.mk.injEq] at e'
          exact e'.1.symm
  have hdep : Fld.depositAll cfg.A cfg.SD st.items (List.replicate D (0 : K)) =
      (List.range D).map (fun j => (st.items.map (Spec.contrib cfg.A cfg.SD j)).sum) := by
    apply List.ext_getElem
    · simp
    · intro j h1 h2
      simp [Fld.depositAll]
  simp only [hcur, Option.map_some, hdep] at e
  refine ⟨_, e, ?_, ?_⟩
  · simp
  · intro k hk
    have hj := hm.cells.range k hk
    have hw : (st.items.map (fun p => if d k ∈ cfg.SC.dofs (cfg.A.cell p) then cfg.A.weight p else 0)).sum =
        ((st.items.filter (fun p => cfg.A.cell p = k)).map cfg.A.weight).sum := by
      clear e hcur hdep h hon hon'
      generalize st.items = xs at hc
      induction xs with
      | nil => rfl
      | cons p ps ih =>
        have hp := hc p (by simp)
        rw [List.map_cons, List.sum_cons, ih (fun q hq => hc q (by simp [hq])), List.filter_cons,
          hm.cells.one _ hp]
        by_cases hpk : cfg.A.cell p = k
        · rw [hpk]; simp
        · have : d k ≠ d (cfg.A.cell p) := fun e => hpk (hm.cells.inj k hk _ hp e).symm
          simp [hpk, this]
    simp only [Fld.weighAll, Fld.mapIdx_comp]
    rw [List.getD_eq_getElem?_getD]
    simp [hj, Fld.divisors hm.cells hk, hw]

theorem multiplyAdd_range (D : Nat) (f g : Nat → K) (q : K) :
    Fld.multiplyAdd ((List.range D).map f) ((List.range D).map g) (some q) =
      .ok ((List.range D).map (fun j => f j + q * g j)) := by
  unfold Fld.multiplyAdd
  rw [if_pos (by simp)]
  congr 1
  apply List.ext_getElem
  · simp
  · intro j h1 h2
    simp

theorem accumulateAll_ok {cfg : Cfg K V α σ φ} {onMesh : α → Bool} {d : Nat → Nat} {sl D C : Nat}
    (hm : GoodMesh cfg onMesh d D C) {every : Option Int} (hev : every ≠ some 0) (count : Int)
    (time : K) {sps : List (Sp K V α)} {pops : List (Pop K V α)}
    (h : List.Forall₂ (RelSp' sl D C) sps pops)
    (hz : ∀ sp ∈ sps, sp.dof = List.replicate D 0 ∧ sp.cell = List.replicate C 0)
    (hon : ∀ p ∈ pops, p.st.items.all onMesh = true) (g : Nat → K) :
    ∃ sps' log, accumulateAll cfg every count time sps ((List.range D).map g) =
        .ok (sps', (List.range D).map (fun j => g j + Spec.chargeAt cfg pops j), log) ∧
      List.Forall₂ (RelSp sl D C) sps' (pops.map Spec.looked) ∧
      List.Forall₂ (Spec.DensityOf cfg d C)
        (if Spec.isDue every count then pops.map (fun p => (time, Spec.looked p)) else []) log := by
  induction h generalizing g with
  | nil =>
    refine ⟨[], [], ?_, .nil, ?_⟩
    · simp [accumulateAll, Spec.chargeAt]
    · split <;> exact .nil
  | @cons sp p sps pops hd htl ih =>
    obtain ⟨b, hb⟩ := hd
    obtain ⟨hz1, hz2⟩ := hz sp (by simp)
    obtain ⟨cell', e, hl, hcell⟩ := accumulate_one hm hb.holds (hon p (by simp))
    obtain ⟨sps', log, e2, h2, h3⟩ := ih (fun sp h => hz sp (List.mem_cons_of_mem _ h))
      (fun p h => hon p (List.mem_cons_of_mem _ h))
      (fun j => g j + sp.charge * (p.st.items.map (Spec.contrib cfg.A cfg.SD j)).sum)
    refine ⟨{ sp with
        sap := sp.sap.withCur (endOf sp.sap)
        dof := (List.range D).map (fun j => (p.st.items.map (Spec.contrib cfg.A cfg.SD j)).sum)
        cell := cell' } :: sps',
      (if Spec.isDue every count then [(sp.name, time, cell')] else []) ++ log, ?_, .cons ?_ h2, ?_⟩
    · simp only [accumulateAll, hz1, hz2, e, bind, Except.bind, due_ok hev, Option.getD_some,
        multiplyAdd_range, e2, pure, Except.pure]
      congr 3
      apply List.map_congr_left
      intro j _
      simp only [Spec.chargeAt, List.map_cons, List.sum_cons, hb.charge]
      ring
    · exact ⟨hb.name, hb.charge, hb.mass, hb.index, hb.holds.atEnd, by simp, hl⟩
    · by_cases hdue : Spec.isDue every count = true
      · rw [if_pos hdue] at h3 ⊢
        rw [if_pos hdue]
        exact .cons ⟨hb.name, rfl, hl, hcell⟩ h3
      · rw [if_neg hdue] at h3 ⊢
        rw [if_neg hdue]
        exact h3

theorem densities_ok {cfg : Cfg K V α σ φ} {onMesh : α → Bool} {d : Nat → Nat} {sl D C : Nat}
    (hm : GoodMesh cfg onMesh d D C) {every : Option Int} (hev : every ≠ some 0)
    {st : State K V α σ φ} {pops : List (Pop K V α)}
    (h : List.Forall₂ (RelSp' sl D C) st.sps pops) (hD : st.solver.charge.length = D)
    (hon : ∀ p ∈ pops, p.st.items.all onMesh = true) :
    ∃ sps' log, densities cfg every st = .ok { st with
        sps := sps'
        solver := { st.solver with charge := (List.range D).map (Spec.chargeAt cfg pops) }
        cellLog := st.cellLog ++ log } ∧
      List.Forall₂ (RelSp sl D C) sps' (pops.map Spec.looked) ∧
      List.Forall₂ (Spec.DensityOf cfg d C) (if Spec.isDue every st.count then
        pops.map (fun p => (st.time, Spec.looked p)) else []) log := by
  have hrel : List.Forall₂ (RelSp' sl D C) (st.sps.map (fun sp =>
      { sp with dof := Fld.setValues sp.dof 0, cell := Fld.setValues sp.cell 0 })) pops := by
    clear hD
    generalize st.sps = sps at h
    induction h with
    | nil => exact .nil
    | cons hd htl ih =>
      obtain ⟨b, hb⟩ := hd
      refine .cons ⟨b, hb.name, hb.charge, hb.mass, hb.index, hb.holds, ?_, ?_⟩
        (ih (fun p hp => hon p (List.mem_cons_of_mem _ hp)))
      · simpa [Fld.setValues] using hb.dof
      · simpa [Fld.setValues] using hb.cell
  have hz : ∀ sp ∈ st.sps.map (fun sp =>
      { sp with dof := Fld.setValues sp.dof 0, cell := Fld.setValues sp.cell 0 }),
      sp.dof = List.replicate D 0 ∧ sp.cell = List.replicate C 0 := by
    intro sp hsp
    obtain ⟨q, hq, rfl⟩ := List.mem_map.1 hsp
    have : q.dof.length = D ∧ q.cell.length = C := by
      clear hrel hsp
      generalize st.sps = sps at h hq
      induction h with
      | nil => simp at hq
      | cons hd htl ih =>
        rcases List.mem_cons.1 hq with rfl | hq
        · obtain ⟨b, hb⟩ := hd
          exact ⟨hb.dof, hb.cell⟩
        · exact ih (fun p hp => hon p (List.mem_cons_of_mem _ hp)) hq
    simp [Fld.setValues, this.1, this.2]
  have hv : Fld.setValues st.solver.charge 0 = (List.range D).map (fun _ => (0 : K)) := by
    simp [Fld.setValues, hD]
  obtain ⟨sps', log, e, h1, h2⟩ := accumulateAll_ok hm hev st.count st.time hrel hz hon (fun _ => 0)
  refine ⟨sps', log, ?_, h1, h2⟩
  simp only [densities, hv, e, bind, Except.bind, pure, Except.pure, zero_add]

/-! ### Histories -/

/-- A species after read loops, as seen by the histories. -/
def StayH (sp sp' : Species.HSpecies K α) : Prop := Stay sp.sap sp'.sap ∧ sp'.mass = sp.mass

theorem stayH_reach {a b : List (Species.HSpecies K α)} (h : List.Forall₂ StayH a b)
    (hr : ∀ sp ∈ a, Reachable sp.sap) : ∀ sp ∈ b, Reachable sp.sap := by
  induction h with
  | nil => simp
  | cons hd htl ih =>
    intro sp hsp
    rcases List.mem_cons.1 hsp with rfl | hsp
    · exact hd.1.reach (hr _ (by simp))
    · exact ih (fun sp h => hr sp (List.mem_cons_of_mem _ h)) sp hsp

theorem stayH_refl (sps : List (Species.HSpecies K α)) : List.Forall₂ StayH sps sps := by
  induction sps with
  | nil => exact .nil
  | cons sp sps ih => exact .cons ⟨.refl _, rfl⟩ ih

theorem stayH_trans {a b c : List (Species.HSpecies K α)} (h : List.Forall₂ StayH a b)
    (k : List.Forall₂ StayH b c) : List.Forall₂ StayH a c := by
  induction h generalizing c with
  | nil => exact k
  | cons hd htl ih =>
    cases k with
    | cons kd ktl => exact .cons ⟨hd.1.trans kd.1, kd.2.trans hd.2⟩ (ih ktl)

end TimeLoop

namespace TimeLoop
open SAP (Reachable Sim)
open Spec (LState Pop Ideal Fault)
variable {K V α σ φ : Type} [Field K] [LinearOrder K]

theorem speciesLoop_stay {w : α → K} {vel : List (α → K)} {q : Species.Quantity}
    {sps sps' : List (Species.HSpecies K α)} {tot : K} {y : Species.HVals K}
    (hr : ∀ sp ∈ sps, Reachable sp.sap)
    (e : Species.speciesLoop w vel q sps tot = .ok (sps', y)) : List.Forall₂ StayH sps sps' := by
  induction sps generalizing sps' tot y with
  | nil =>
    simp only [Species.speciesLoop, Except.ok.injEq, Prod.mk.injEq] at e
    rw [← e.1]; exact .nil
  | cons sp sps ih =>
    simp only [Species.speciesLoop, bind, Except.bind] at e
    split at e
    · cases e
    · rename_i r1 hq1
      obtain ⟨sp1, x1⟩ := r1
      have h1 : StayH sp sp1 := by
        unfold Species.speciesValue at hq1
        cases q with
        | count =>
          simp only [Except.ok.injEq, Prod.mk.injEq] at hq1
          rw [← hq1.1]; exact ⟨.refl _, rfl⟩
        | KE =>
          simp only at hq1
          cases hk : Species.getSpeciesKE w vel sp.mass sp.sap with
          | error _ => rw [hk] at hq1; simp [Except.map] at hq1
          | ok r =>
            rw [hk] at hq1
            simp only [Except.map, Except.ok.injEq, Prod.mk.injEq] at hq1
            rw [← hq1.1]
            simp only [Species.getSpeciesKE, bind, Except.bind] at hk
            split at hk
            · cases hk
            · rename_i r2 hq2
              obtain ⟨t, y2⟩ := r2
              simp only [pure, Except.pure, Except.ok.injEq] at hk
              rw [← hk]
              exact ⟨outLoop_stay (hr sp (by simp)) _ hq2, rfl⟩
        | other => cases hq1
      have hr1 : Reachable sp1.sap := h1.1.reach (hr sp (by simp))
      split at e
      · cases e
      · rename_i r2 hq2
        obtain ⟨s2, n2⟩ := r2
        have h2 : Stay sp1.sap s2 := outLoop_stay hr1 _ hq2
        split at e
        · cases e
        · rename_i r3 hq3
          obtain ⟨sps3, h3⟩ := r3
          simp only [pure, Except.pure, Except.ok.injEq, Prod.mk.injEq] at e
          rw [← e.1]
          exact .cons ⟨h1.1.trans h2, h1.2⟩ (ih (fun sp h => hr sp (List.mem_cons_of_mem _ h)) hq3)

theorem quantityLoop_stay {w : α → K} {vel : List (α → K)} {qs : List Species.Quantity}
    {sps sps' : List (Species.HSpecies K α)} {y : List (Species.HVals K)}
    (hr : ∀ sp ∈ sps, Reachable sp.sap)
    (e : Species.quantityLoop w vel qs sps = .ok (sps', y)) : List.Forall₂ StayH sps sps' := by
  induction qs generalizing sps sps' y with
  | nil =>
    simp only [Species.quantityLoop, Except.ok.injEq, Prod.mk.injEq] at e
    rw [← e.1]; exact stayH_refl _
  | cons q qs ih =>
    simp only [Species.quantityLoop, bind, Except.bind] at e
    split at e
    · cases e
    · rename_i r1 hq1
      obtain ⟨sps1, x1⟩ := r1
      have h1 := speciesLoop_stay hr hq1
      split at e
      · cases e
      · rename_i r2 hq2
        obtain ⟨sps2, x2⟩ := r2
        simp only [pure, Except.pure, Except.ok.injEq, Prod.mk.injEq] at e
        rw [← e.1]
        exact stayH_trans h1 (ih (stayH_reach h1 hr) hq2)

theorem holdsAll_of_rel {sl D C : Nat} {sps : List (Sp K V α)} {pops : List (Pop K V α)}
    (h : List.Forall₂ (RelSp sl D C) sps pops) :
    HoldsAll (sps.map (fun sp => (⟨sp.sap, sp.mass⟩ : Species.HSpecies K α)))
      (pops.map (fun p => (p.mass, p.st.items))) := by
  induction h with
  | nil => exact .nil
  | cons hd htl ih => exact .cons ⟨hd.holds.reach, hd.holds.stores, hd.mass⟩ ih

theorem stayH_saps {sps : List (Sp K V α)} {os : List (Species.HSpecies K α)}
    (h : List.Forall₂ StayH (sps.map (fun sp => (⟨sp.sap, sp.mass⟩ : Species.HSpecies K α))) os) :
    List.Forall₂ (fun (sp : Sp K V α) t => Stay sp.sap t) sps (os.map (·.sap)) := by
  induction sps generalizing os with
  | nil => cases h; exact .nil
  | cons sp sps ih =>
    rw [List.map_cons] at h
    cases h with
    | cons hd htl => exact .cons hd.1 (ih htl)

/-- The histories: `done` rows recorded, `room` more. -/
def HistIs (z : Species.HRow K) (h : Option (Species.History K)) (done : Option (List (Species.HRow K)))
    (room : Nat) : Prop :=
  match done with
  | none => h = none
  | some rows => h = some ⟨rows ++ List.replicate room z, rows.length, 1⟩

theorem recordHist_ok {cfg : Cfg K V α σ φ} (hq : .other ∉ cfg.quantities) {sl D C : Nat}
    {st : State K V α σ φ} {pops : List (Pop K V α)}
    (h : List.Forall₂ (RelSp sl D C) st.sps (pops.map Spec.looked)) {rows : List (Species.HRow K)}
    {room : Nat} {z : Species.HRow K} {hist : Species.History K}
    (hh : hist = ⟨rows ++ List.replicate (room + 1) z, rows.length, 1⟩) :
    ∃ sps', recordHist cfg hist st = .ok { st with
        hist := some ⟨(rows ++ [rowOf cfg.A.weight cfg.vel cfg.quantities (st.count, st.time,
          pops.map (fun p => (p.mass, p.st.items)))]) ++ List.replicate room z, rows.length + 1, 1⟩
        sps := sps' } ∧
      List.Forall₂ (RelSp sl D C) sps' (pops.map Spec.looked) := by
  have hall := holdsAll_of_rel h
  obtain ⟨os, e, _⟩ := quantityLoop_ok cfg.A.weight cfg.vel cfg.quantities hq hall
  have hreach : ∀ sp ∈ st.sps.map (fun sp => (⟨sp.sap, sp.mass⟩ : Species.HSpecies K α)),
      Reachable sp.sap := by
    intro sp hsp
    obtain ⟨s, hs, rfl⟩ := List.mem_map.1 hsp
    clear e hall hsp
    generalize st.sps = sps at h hs
    generalize pops.map Spec.looked = ps at h
    induction h with
    | nil => simp at hs
    | cons hd htl ih =>
      rcases List.mem_cons.1 hs with rfl | hs
      · exact hd.holds.reach
      · exact ih hs
  refine ⟨putSaps st.sps (os.map (·.sap)), ?_,
    putSaps_looked h (stayH_saps (quantityLoop_stay hreach e))⟩
  have hset : (rows ++ List.replicate (room + 1) z).set rows.length
      ⟨st.count, st.time, cfg.quantities.map (fun q => histVals cfg.A.weight cfg.vel q
        (pops.map (fun p => (p.mass, p.st.items))))⟩ =
      (rows ++ [rowOf cfg.A.weight cfg.vel cfg.quantities (st.count, st.time,
        pops.map (fun p => (p.mass, p.st.items)))]) ++ List.replicate room z := by
    rw [List.set_append_right _ _ (by omega), Nat.sub_self, List.replicate_succ, List.set_cons_zero]
    simp [rowOf]
  have hlook : (pops.map Spec.looked).map (fun p => (p.mass, p.st.items)) =
      pops.map (fun p => (p.mass, p.st.items)) := by
    simp [Function.comp_def, Spec.looked]
  rw [hlook] at e
  subst hh
  simp only [recordHist, Species.recordHistory, bind, Except.bind, pure, Except.pure]
  rw [pyGet_of_lt (by simp)]
  simp only [e]
  rw [pySet_of_lt _ (by simp)]
  simp only [hset]

/-! ### One step, all steps -/

/-- What the theorems require of the control parameters. -/
structure GoodCfg (cfg : Cfg K V α σ φ) : Prop where
  attrs : GoodAttrs cfg.attrs
  quantities : .other ∉ cfg.quantities
  part : cfg.partEvery ≠ some 0
  cell : cfg.cellEvery ≠ some 0
  field : cfg.fieldEvery ≠ some 0

/-- The state of the program and of the specification between steps. -/
structure Rel (cfg : Cfg K V α σ φ) (sl D C : Nat) (st : State K V α σ φ) (i : Ideal K V α σ) : Prop where
  count : st.count = i.count
  time : st.time = i.time
  side : st.side = i.side
  field : st.field = cfg.fieldOf i.phi
  phi : st.solver.phi = i.phi
  charge : st.solver.charge.length = D
  sps : List.Forall₂ (RelSp sl D C) st.sps i.pops

/-- What the particle file gets for a state. -/
def callOf (i : Ideal K V α σ) : Output.Call (List (V × List α)) K := ⟨i.count, i.time, i.filed⟩

/-- The row of the histories for a state. -/
def rowI (cfg : Cfg K V α σ φ) (i : Ideal K V α σ) : Species.HRow K :=
  rowOf cfg.A.weight cfg.vel cfg.quantities (i.count, i.time, i.massed)

/-- The particle file, open, holds the given groups; `last` is the step written last. -/
def FileIs (attrs : List (Output.Attr α V)) (w : Option (Output.Writer V K))
    (calls : Option (List (Output.Call (List (V × List α)) K))) (last : Int) : Prop :=
  match calls with
  | none => w = none
  | some cs => ∃ w0, w = some w0 ∧ w0.Ready ∧ List.Forall₂ (GroupOf attrs) cs w0.file.groups ∧
      w0.lastStep = last

/-- Everything written and recorded so far. -/
structure Logs (cfg : Cfg K V α σ φ) (d : Nat → Nat) (C : Nat) (z : Species.HRow K)
    (st : State K V α σ φ) (calls : Option (List (Output.Call (List (V × List α)) K))) (last : Int)
    (done : Option (List (Species.HRow K))) (room : Nat) (plog : List (K × List K))
    (clog : List (K × Pop K V α)) : Prop where
  file : FileIs cfg.attrs st.writer calls last
  hist : HistIs z st.hist done room
  phi : st.phiLog = plog
  cell : List.Forall₂ (Spec.DensityOf cfg d C) clog st.cellLog

/-- The densities written for states. -/
def cellsOf (is : List (Ideal K V α σ)) : List (K × Pop K V α) :=
  is.flatMap (fun i => i.pops.map (fun p => (i.time, p)))

/-- The potentials written for states. -/
def phisOf (is : List (Ideal K V α σ)) : List (K × List K) := is.map (fun i => (i.time, i.phi))

theorem filed_looked (pops : List (Pop K V α)) :
    (pops.map Spec.looked).map (fun p => (p.index, p.st.items)) = filed pops := by
  simp [filed, Function.comp_def, Spec.looked]

/-- The particles are determined; the rest of a step. -/
theorem settle_agree {cfg : Cfg K V α σ φ} {onMesh : α → Bool} {d : Nat → Nat} {sl D C : Nat}
    (hc : GoodCfg cfg) (hm : GoodMesh cfg onMesh d D C) {z : Species.HRow K}
    {st : State K V α σ φ} {pops : List (Pop K V α)}
    (h : List.Forall₂ (RelSp sl D C) st.sps pops) (hD : st.solver.charge.length = D)
    {calls : Option (List (Output.Call (List (V × List α)) K))} {last : Int}
    {done : Option (List (Species.HRow K))} {room : Nat} {plog : List (K × List K)}
    {clog : List (K × Pop K V α)} (hl : Logs cfg d C z st calls last done (room + 1) plog clog)
    (hlast : last < st.count) (hnone : calls = none → cfg.partEvery = none) :
    Agree (fun i st' => Rel cfg sl D C st' i ∧
        Logs cfg d C z st' (calls.map (· ++ (Spec.dueStates cfg.partEvery [i]).map callOf))
          (if Spec.isDue cfg.partEvery i.count then i.count else last)
          (done.map (· ++ [rowI cfg i])) room
          (plog ++ phisOf (Spec.dueStates cfg.fieldEvery [i]))
          (clog ++ cellsOf (Spec.dueStates cfg.cellEvery [i])))
      (Spec.settle cfg D onMesh st.count st.time pops st.side)
      (do let st2 ← writeDue cfg st
          let st3 ← densities cfg cfg.cellEvery st2
          let st4 ← solveDue cfg st3
          histDue cfg st4) := by
  unfold Spec.settle
  by_cases hon : pops.all (fun p => p.st.items.all onMesh) = true
  swap
  · rw [if_neg hon]; trivial
  rw [if_pos hon]
  have hon' : ∀ p ∈ pops, p.st.items.all onMesh = true := by simpa using hon
  have hw0 : List.Forall₂ (RelSp' sl D C) st.sps pops := h.imp (fun _ _ k => k.weak)
  -- the particle file
  have hwrite : ∃ w2 sps2, writeDue cfg st = .ok { st with writer := w2, sps := sps2 } ∧
      List.Forall₂ (RelSp' sl D C) sps2 pops ∧
      FileIs cfg.attrs w2 (calls.map (· ++ if Spec.isDue cfg.partEvery st.count then
          [⟨st.count, st.time, filed pops⟩] else []))
        (if Spec.isDue cfg.partEvery st.count then st.count else last) := by
    unfold writeDue
    simp only [due_ok hc.part, bind, Except.bind]
    by_cases hdue : Spec.isDue cfg.partEvery st.count = true
    · rw [if_pos hdue]
      simp only [if_pos hdue]
      cases calls with
      | none => rw [hnone rfl] at hdue; cases hdue
      | some cs =>
        obtain ⟨w0, e0, hr, hg, hls⟩ := hl.file
        obtain ⟨w', sps', cols, e, h1, h2, h3, h4, _, h6⟩ := writeFile_ok hc.attrs hw0 e0 hr
          (by rw [hls]; omega) false
        refine ⟨_, _, e, h1, w', rfl, h6 rfl, ?_, h4⟩
        rw [h2]
        exact List.rel_append hg (.cons h3 .nil)
    · rw [if_neg hdue]
      simp only [if_neg hdue]
      refine ⟨st.writer, st.sps, rfl, hw0, ?_⟩
      have := hl.file
      cases calls with
      | none => exact this
      | some cs => simpa using this
  obtain ⟨w2, sps2, e2, hs2, hf2⟩ := hwrite
  obtain ⟨sps3, log, e3, hs3, hlog⟩ := densities_ok hm hc.cell
    (st := { st with writer := w2, sps := sps2 }) hs2 hD hon'
  dsimp only at e3 hlog
  -- the field
  have hphi : (Fld.solveForPhi cfg.bc cfg.solve
      { st.solver with charge := (List.range D).map (Spec.chargeAt cfg pops) } true cfg.factor).phi =
      Spec.potential cfg D pops ∧
      (Fld.solveForPhi cfg.bc cfg.solve
      { st.solver with charge := (List.range D).map (Spec.chargeAt cfg pops) } true
        cfg.factor).charge.length = D := by
    unfold Fld.solveForPhi Spec.potential
    cases cfg.factor with
    | none => simp
    | some f => simp [Function.comp_def]
  have e4 : ∃ solver4, solveDue cfg { st with
        sps := sps3
        writer := w2
        solver := { st.solver with charge := (List.range D).map (Spec.chargeAt cfg pops) }
        cellLog := st.cellLog ++ log } = .ok { st with
          sps := sps3
          writer := w2
          solver := solver4
          field := cfg.fieldOf (Spec.potential cfg D pops)
          phiLog := st.phiLog ++ (if Spec.isDue cfg.fieldEvery st.count then
            [(st.time, Spec.potential cfg D pops)] else [])
          cellLog := st.cellLog ++ log } ∧
        solver4.phi = Spec.potential cfg D pops ∧ solver4.charge.length = D := by
    refine ⟨_, ?_, hphi.1, hphi.2⟩
    simp only [solveDue, due_ok hc.field, bind, Except.bind, pure, Except.pure, solveField, writePhi]
    split
    · simp only [hphi.1]
    · simp only [hphi.1, List.append_nil]
  obtain ⟨solver4, e4, hp4, hc4⟩ := e4
  -- the histories
  have e5 : ∃ h5 sps5, histDue cfg { st with
          sps := sps3
          writer := w2
          solver := solver4
          field := cfg.fieldOf (Spec.potential cfg D pops)
          phiLog := st.phiLog ++ (if Spec.isDue cfg.fieldEvery st.count then
            [(st.time, Spec.potential cfg D pops)] else [])
          cellLog := st.cellLog ++ log } = .ok { st with
          sps := sps5
          hist := h5
          writer := w2
          solver := solver4
          field := cfg.fieldOf (Spec.potential cfg D pops)
          phiLog := st.phiLog ++ (if Spec.isDue cfg.fieldEvery st.count then
            [(st.time, Spec.potential cfg D pops)] else [])
          cellLog := st.cellLog ++ log } ∧
        List.Forall₂ (RelSp sl D C) sps5 (pops.map Spec.looked) ∧
        HistIs z h5 (done.map (· ++ [rowOf cfg.A.weight cfg.vel cfg.quantities (st.count, st.time,
          pops.map (fun p => (p.mass, p.st.items)))])) room := by
    unfold histDue
    dsimp only
    have hh := hl.hist
    cases done with
    | none =>
      have hh : st.hist = none := hh
      rw [hh]
      exact ⟨none, sps3, rfl, hs3, rfl⟩
    | some rows =>
      have hh : st.hist = some _ := hh
      rw [hh]
      simp only [due_ok (show (some ((1 : Nat) : Int)) ≠ some 0 by decide), bind, Except.bind]
      have h1 : Spec.isDue (some ((1 : Nat) : Int)) st.count = true := by
        simp [Spec.isDue, Int.fmod_one]
      rw [if_pos h1]
      obtain ⟨sps5, e, hs5⟩ := recordHist_ok hc.quantities (st := { st with
          sps := sps3
          writer := w2
          solver := solver4
          field := cfg.fieldOf (Spec.potential cfg D pops)
          phiLog := st.phiLog ++ (if Spec.isDue cfg.fieldEvery st.count then
            [(st.time, Spec.potential cfg D pops)] else [])
          cellLog := st.cellLog ++ log }) hs3 (rows := rows) (room := room) (z := z) rfl
      exact ⟨_, sps5, e, hs5, by simp [HistIs]⟩
  obtain ⟨h5, sps5, e5, hs5, hh5⟩ := e5
  refine ⟨{ st with
      sps := sps5
      hist := h5
      writer := w2
      solver := solver4
      field := cfg.fieldOf (Spec.potential cfg D pops)
      phiLog := st.phiLog ++ (if Spec.isDue cfg.fieldEvery st.count then
        [(st.time, Spec.potential cfg D pops)] else [])
      cellLog := st.cellLog ++ log }, ?_, ⟨rfl, rfl, rfl, rfl, hp4, hc4, hs5⟩, ⟨?_, ?_, ?_, ?_⟩⟩
  · simp only [e2, bind, Except.bind]
    rw [e3]
    dsimp only
    rw [e4]
    dsimp only
    rw [e5]
  · simp only [Spec.dueStates, List.filter_cons, List.filter_nil]
    by_cases hdue : Spec.isDue cfg.partEvery st.count = true
    · simp only [if_pos hdue] at hf2 ⊢
      simp only [List.map_cons, List.map_nil, callOf, Ideal.filed, filed_looked]
      exact hf2
    · simp only [if_neg hdue] at hf2 ⊢
      exact hf2
  · have : rowI cfg (⟨st.count, st.time, pops.map Spec.looked, st.side, Spec.potential cfg D pops⟩ :
        Ideal K V α σ) = rowOf cfg.A.weight cfg.vel cfg.quantities (st.count, st.time,
          pops.map (fun p => (p.mass, p.st.items))) := by
      simp [rowI, Ideal.massed, Function.comp_def, Spec.looked]
    rw [this]
    exact hh5
  · simp only [hl.phi, phisOf, Spec.dueStates, List.filter_cons, List.filter_nil]
    by_cases hdue : Spec.isDue cfg.fieldEvery st.count = true
    · simp [hdue]
    · simp [hdue]
  · refine List.rel_append hl.cell ?_
    simp only [cellsOf, Spec.dueStates, List.filter_cons, List.filter_nil]
    by_cases hdue : Spec.isDue cfg.cellEvery st.count = true
    · simp only [if_pos hdue] at hlog ⊢
      simpa [Function.comp_def] using hlog
    · simp only [if_neg hdue] at hlog ⊢
      simpa using hlog

theorem step_agree {cfg : Cfg K V α σ φ} {onMesh : α → Bool} {d : Nat → Nat} {sl D C : Nat}
    (hc : GoodCfg cfg) (hm : GoodMesh cfg onMesh d D C) {z : Species.HRow K}
    {st : State K V α σ φ} {i : Ideal K V α σ} (h : Rel cfg sl D C st i)
    {calls : Option (List (Output.Call (List (V × List α)) K))} {last : Int}
    {done : Option (List (Species.HRow K))} {room : Nat} {plog : List (K × List K)}
    {clog : List (K × Pop K V α)} (hl : Logs cfg d C z st calls last done (room + 1) plog clog)
    (hlast : last ≤ i.count) (hnone : calls = none → cfg.partEvery = none) :
    Agree (fun i' st' => Rel cfg sl D C st' i' ∧
        Logs cfg d C z st' (calls.map (· ++ (Spec.dueStates cfg.partEvery [i']).map callOf))
          (if Spec.isDue cfg.partEvery i'.count then i'.count else last)
          (done.map (· ++ [rowI cfg i'])) room
          (plog ++ phisOf (Spec.dueStates cfg.fieldEvery [i']))
          (clog ++ cellsOf (Spec.dueStates cfg.cellEvery [i'])))
      (i.step cfg sl D onMesh) (step cfg st) := by
  simp only [Ideal.step, step, particles, h.field, h.count, h.time, h.side]
  have h1 := advance_agree (fun sn => cfg.move sn (cfg.fieldOf i.phi) (i.count + 1) (i.time + cfg.dt))
    h.sps i.side
  cases hmv : Spec.moveAll sl (fun sn => cfg.move sn (cfg.fieldOf i.phi) (i.count + 1) (i.time + cfg.dt))
      i.pops i.side with
  | error f =>
    rw [hmv] at h1
    cases f with
    | raises e => simp only [Agree] at h1 ⊢; rw [h1]; rfl
    | allLost => trivial
    | offMesh => trivial
  | ok r =>
    obtain ⟨ps, side⟩ := r
    rw [hmv] at h1
    obtain ⟨⟨sps1, side1⟩, e1, hs1, hside⟩ := h1
    simp only at hs1 hside
    subst hside
    rw [e1]
    simp only [bind, Except.bind]
    have h2 := addMore_agree (i.count + 1) (i.time + cfg.dt) cfg.sources hs1 side1
    cases hcr : Spec.createAll sl (i.count + 1) (i.time + cfg.dt) cfg.sources ps side1 with
    | error f =>
      rw [hcr] at h2
      cases f with
      | raises e => simp only [Agree] at h2 ⊢; rw [h2]
      | allLost => trivial
      | offMesh => trivial
    | ok r2 =>
      obtain ⟨ps2, side2⟩ := r2
      rw [hcr] at h2
      obtain ⟨⟨sps2, side3⟩, e2, hs2, hside⟩ := h2
      simp only at hs2 hside
      subst hside
      rw [e2]
      have := settle_agree hc hm (z := z) (st := { st with
        count := i.count + 1, time := i.time + cfg.dt, sps := sps2, side := side3, field := cfg.fieldOf i.phi }) (pops := ps2)
        hs2 h.charge (calls := calls) (last := last) (done := done) (room := room) (plog := plog)
        (clog := clog) ⟨hl.file, hl.hist, hl.phi, hl.cell⟩ (by simp only; omega) hnone
      exact this

theorem dueStates_cons (every : Option Int) (i : Ideal K V α σ) (is : List (Ideal K V α σ)) :
    Spec.dueStates every (i :: is) = Spec.dueStates every [i] ++ Spec.dueStates every is := by
  rw [← List.singleton_append, Spec.dueStates, List.filter_append]; rfl

theorem step_count {cfg : Cfg K V α σ φ} {sl D : Nat} {onMesh : α → Bool} {i i' : Ideal K V α σ}
    (h : i.step cfg sl D onMesh = .ok i') : i'.count = i.count + 1 := by
  unfold Ideal.step at h
  dsimp only at h
  split at h
  · cases h
  · split at h
    · cases h
    · unfold Spec.settle at h
      split at h
      · cases h; rfl
      · cases h

theorem lastOf_cons (i0 i : Ideal K V α σ) (is : List (Ideal K V α σ)) :
    Spec.lastOf i0 (i :: is) = Spec.lastOf i is := by
  cases is with
  | nil => rfl
  | cons j js =>
    unfold Spec.lastOf
    rw [List.getLast?_cons_cons]
    simp [List.getLast?_cons]

theorem steps_agree {cfg : Cfg K V α σ φ} {onMesh : α → Bool} {d : Nat → Nat} {sl D C : Nat}
    (hc : GoodCfg cfg) (hm : GoodMesh cfg onMesh d D C) {z : Species.HRow K} (n : Nat)
    {st : State K V α σ φ} {i : Ideal K V α σ} (h : Rel cfg sl D C st i)
    {calls : Option (List (Output.Call (List (V × List α)) K))} {last : Int}
    {done : Option (List (Species.HRow K))} {plog : List (K × List K)}
    {clog : List (K × Pop K V α)} (hl : Logs cfg d C z st calls last done n plog clog)
    (hlast : last ≤ i.count) (hnone : calls = none → cfg.partEvery = none) :
    Agree (fun is st' => Rel cfg sl D C st' (Spec.lastOf i is) ∧ is.length = n ∧
        ∃ last', Logs cfg d C z st' (calls.map (· ++ (Spec.dueStates cfg.partEvery is).map callOf))
          last' (done.map (· ++ is.map (rowI cfg))) 0
          (plog ++ phisOf (Spec.dueStates cfg.fieldEvery is))
          (clog ++ cellsOf (Spec.dueStates cfg.cellEvery is)) ∧
        last' ≤ (Spec.lastOf i is).count ∧
        (is = [] → last' = last) ∧
        (is ≠ [] → (last' = (Spec.lastOf i is).count ↔
          Spec.isDue cfg.partEvery (Spec.lastOf i is).count = true)))
      (Ideal.steps cfg sl D onMesh n i) (steps cfg n st) := by
  induction n generalizing st i calls last done plog clog with
  | zero =>
    refine ⟨st, rfl, h, rfl, last, ?_, hlast, fun _ => rfl, fun hne => absurd rfl hne⟩
    have e1 : calls.map (· ++ (Spec.dueStates cfg.partEvery ([] : List (Ideal K V α σ))).map callOf)
        = calls := by cases calls <;> simp [Spec.dueStates]
    have e2 : done.map (· ++ ([] : List (Ideal K V α σ)).map (rowI cfg)) = done := by
      cases done <;> simp
    rw [e1, e2]
    simpa [phisOf, cellsOf, Spec.dueStates] using hl
  | succ n ih =>
    simp only [Ideal.steps, steps]
    have h1 := step_agree hc hm h hl hlast hnone
    cases hs : i.step cfg sl D onMesh with
    | error f =>
      rw [hs] at h1
      cases f with
      | raises e => simp only [Agree] at h1 ⊢; rw [h1]; rfl
      | allLost => trivial
      | offMesh => trivial
    | ok i' =>
      have hcount := step_count hs
      rw [hs] at h1
      obtain ⟨st', e1, hr, hl'⟩ := h1
      rw [e1]
      simp only [bind, Except.bind]
      have h2 := ih hr hl' (by split <;> omega) (by
        intro hn
        cases calls with
        | none => exact hnone rfl
        | some cs => simp at hn)
      cases hss : Ideal.steps cfg sl D onMesh n i' with
      | error f =>
        rw [hss] at h2
        cases f with
        | raises e => simp only [Agree] at h2 ⊢; rw [h2]
        | allLost => trivial
        | offMesh => trivial
      | ok is =>
        rw [hss] at h2
        obtain ⟨st'', e2, hr2, hlen, last', hl2, hle, hnil, hne⟩ := h2
        refine ⟨st'', e2, ?_, by simp [hlen], last', ?_, ?_, by simp, ?_⟩
        · rw [lastOf_cons]; exact hr2
        · rw [dueStates_cons cfg.partEvery, dueStates_cons cfg.fieldEvery,
            dueStates_cons cfg.cellEvery]
          have e3 : calls.map (· ++ (Spec.dueStates cfg.partEvery [i'] ++
              Spec.dueStates cfg.partEvery is).map callOf) =
              (calls.map (· ++ (Spec.dueStates cfg.partEvery [i']).map callOf)).map
                (· ++ (Spec.dueStates cfg.partEvery is).map callOf) := by
            cases calls <;> simp
          have e4 : done.map (· ++ (i' :: is).map (rowI cfg)) =
              (done.map (· ++ [rowI cfg i'])).map (· ++ is.map (rowI cfg)) := by
            cases done <;> simp
          rw [e3, e4]
          simpa [phisOf, cellsOf] using hl2
        · rw [lastOf_cons]; exact hle
        · intro _
          rw [lastOf_cons]
          by_cases hi : is = []
          · rw [hnil hi, hi]
            change (if Spec.isDue cfg.partEvery i'.count then i'.count else last) = i'.count ↔
              Spec.isDue cfg.partEvery i'.count = true
            split
            · rename_i hd; simp [hd]
            · rename_i hd
              simp only [hd]
              constructor
              · intro hcc; omega
              · intro hcc; cases hcc
          · exact hne hi

/-! ### The beginning and the end -/

/-- The state of the program before initialization, `n` steps to come, for the specification state `i`
and the right-hand side `b`: fresh containers, a new file, new histories, nothing written. -/
structure Fresh (sl D C n : Nat) (z : Species.HRow K) (st : State K V α σ φ) (i : Ideal K V α σ)
    (b : List K) : Prop where
  count : st.count = i.count
  time : st.time = i.time
  side : st.side = i.side
  charge : st.solver.charge.length = D
  b : st.solver.b = b
  sps : List.Forall₂ (RelSp sl D C) st.sps i.pops
  empty : ∀ p ∈ i.pops, p.st = ⟨[], false⟩
  file : st.writer = none ∨ ∃ w, st.writer = some w ∧ w.Ready ∧ w.file.groups = [] ∧ w.lastStep < i.count
  hist : HistIs z st.hist (st.hist.map (fun _ => [])) (n + 1)
  phiLog : st.phiLog = []
  cellLog : st.cellLog = []

theorem looked_empty {pops : List (Pop K V α)} (h : ∀ p ∈ pops, p.st = ⟨[], false⟩) :
    pops.map Spec.looked = pops := by
  have : pops.map Spec.looked = pops.map id := by
    apply List.map_congr_left
    intro p hp
    have := h p hp
    obtain ⟨_, _, _, _, st⟩ := p
    simp only at this
    subst this
    rfl
  rw [this, List.map_id]

/-- The potentials written during initialization. -/
def firstPhis (cfg : Cfg K V α σ φ) (init : Bool) (b : List K) (i0 : Ideal K V α σ) :
    List (K × List K) :=
  if cfg.fieldEvery.isSome then (i0.time, cfg.solve b) :: (if init then [(i0.time, i0.phi)] else [])
  else []

theorem setUp_agree {cfg : Cfg K V α σ φ} {onMesh : α → Bool} {d : Nat → Nat} {sl D C : Nat}
    (hc : GoodCfg cfg) (hm : GoodMesh cfg onMesh d D C) {z : Species.HRow K} {n : Nat}
    (init : Option (List (String × List α))) {st : State K V α σ φ} {i : Ideal K V α σ} {b : List K}
    (h : Fresh sl D C n z st i b) :
    Agree (fun i0 st' => Rel cfg sl D C st' i0 ∧ i0.count = i.count ∧
        st'.writer.isSome = st.writer.isSome ∧
        ∃ last, Logs cfg d C z st' (st.writer.map (fun _ => if init.isSome then [callOf i0] else []))
          last (st.hist.map (fun _ => [rowI cfg i0])) n (firstPhis cfg init.isSome b i0) [] ∧
        last ≤ i.count ∧ (st.writer.isSome = true → (last = i.count ↔ init.isSome = true)))
      (i.start cfg sl D onMesh init b) (setUp cfg init st) := by
  -- the first solution
  have hs1 : ∃ st1, writePhi cfg.fieldEvery.isSome (solveField cfg false st) = st1 ∧
      st1 = { st with
        solver := { st.solver with phi := cfg.solve b }
        field := cfg.fieldOf (cfg.solve b)
        phiLog := if cfg.fieldEvery.isSome then [(i.time, cfg.solve b)] else [] } := by
    refine ⟨_, rfl, ?_⟩
    have hsol : Fld.solveForPhi cfg.bc cfg.solve st.solver false cfg.factor =
        { st.solver with phi := cfg.solve b } := by simp [Fld.solveForPhi, h.b]
    simp only [solveField, writePhi, hsol]
    split
    · simp [h.phiLog, h.time]
    · simp [h.phiLog]
  obtain ⟨st1, e1, h1⟩ := hs1
  unfold setUp
  rw [e1]
  -- recording the histories at the end
  have hrec : ∀ (st2 : State K V α σ φ) (pops : List (Pop K V α)) (phi : List K),
      st2.hist = st.hist → st2.count = i.count → st2.time = i.time →
      List.Forall₂ (RelSp sl D C) st2.sps (pops.map Spec.looked) →
      ∃ h3 sps3, (match st2.hist with
        | none => (.ok st2 : Except Err _)
        | some hh => recordHist cfg hh st2) = .ok { st2 with hist := h3, sps := sps3 } ∧
        List.Forall₂ (RelSp sl D C) sps3 (pops.map Spec.looked) ∧
        HistIs z h3 (st.hist.map (fun _ => [rowI cfg
          (⟨i.count, i.time, pops.map Spec.looked, i.side, phi⟩ : Ideal K V α σ)])) n := by
    intro st2 pops phi hh hcount htime hsps
    have hi := h.hist
    rw [hh]
    cases hst : st.hist with
    | none =>
      rw [hst] at hh
      refine ⟨none, st2.sps, ?_, hsps, rfl⟩
      simp [← hh]
    | some hist =>
      rw [hst] at hi
      have hi : some hist = some _ := hi
      obtain ⟨sps3, e3, hs3⟩ := recordHist_ok hc.quantities (st := st2) hsps (rows := []) (room := n)
        (z := z) (hist := hist) (by simpa using hi)
      refine ⟨_, sps3, e3, hs3, ?_⟩
      simp [HistIs, rowI, Ideal.massed, Function.comp_def, Spec.looked, hcount, htime]
  cases init with
  | none =>
    simp only [Ideal.start, initParticles, bind, Except.bind]
    have hlk := looked_empty h.empty
    obtain ⟨h3, sps3, e3, hs3, hh3⟩ := hrec st1 i.pops (cfg.solve b) (by rw [h1]) (by rw [h1]; exact h.count)
      (by rw [h1]; exact h.time) (by rw [h1, hlk]; exact h.sps)
    rw [hlk] at hs3 hh3
    refine ⟨_, e3, ⟨?_, ?_, ?_, ?_, ?_, ?_, hs3⟩, rfl, by rw [h1], ?_⟩
    · rw [h1]; exact h.count
    · rw [h1]; exact h.time
    · rw [h1]; exact h.side
    · rw [h1]
    · rw [h1]
    · rw [h1]; exact h.charge
    · rcases h.file with hf | ⟨w, hf, hr, hg, hls⟩
      · refine ⟨i.count - 1, ⟨?_, hh3, ?_, ?_⟩, by omega, by simp [hf]⟩
        · rw [h1, hf]; rfl
        · rw [h1]; rfl
        · rw [h1]
          simp only [h.cellLog]
          exact .nil
      · refine ⟨w.lastStep, ⟨?_, hh3, ?_, ?_⟩, by omega, fun _ => by simp; omega⟩
        · rw [h1, hf]
          exact ⟨w, rfl, hr, by rw [hg]; exact .nil, rfl⟩
        · rw [h1]; rfl
        · rw [h1]
          simp only [h.cellLog]
          exact .nil
  | some groups =>
    simp only [Ideal.start, initParticles, bind, Except.bind]
    have hpush := pushInitial_agree (sl := sl) (D := D) (C := C) groups h.sps
    have hsp1 : st1.sps = st.sps := by rw [h1]
    rw [hsp1]
    cases hap : Spec.appendGroups sl groups i.pops with
    | error f =>
      rw [hap] at hpush
      cases f with
      | raises e => simp only [Agree] at hpush ⊢; rw [hpush]
      | allLost => trivial
      | offMesh => trivial
    | ok ps =>
      rw [hap] at hpush
      obtain ⟨sps1, e2, hps⟩ := hpush
      rw [e2]
      simp only
      unfold Spec.settle
      by_cases hon : ps.all (fun p => p.st.items.all onMesh) = true
      swap
      · rw [if_neg hon]; trivial
      rw [if_pos hon]
      have hon' : ∀ p ∈ ps, p.st.items.all onMesh = true := by simpa using hon
      have hw0 : List.Forall₂ (RelSp' sl D C) sps1 ps := hps.imp (fun _ _ k => k.weak)
      -- the particle file
      have hwrite : ∃ w2 sps2 last,
          writeInitial cfg { st1 with sps := sps1 } = .ok { st1 with writer := w2, sps := sps2 } ∧
          List.Forall₂ (RelSp' sl D C) sps2 ps ∧ w2.isSome = st.writer.isSome ∧
          FileIs cfg.attrs w2 (st.writer.map (fun _ => [⟨i.count, i.time, filed ps⟩])) last ∧
          last ≤ i.count ∧ (st.writer.isSome = true → last = i.count) := by
        have hw1 : st1.writer = st.writer := by rw [h1]
        rcases h.file with hf | ⟨w, hf, hr, hg, hls⟩
        · refine ⟨none, sps1, i.count, ?_, hw0, by rw [hf], ?_, by omega, fun _ => rfl⟩
          · simp [writeInitial, hw1, hf]
          · rw [hf]; rfl
        · have hcount : ({ st1 with sps := sps1 } : State K V α σ φ).count = i.count := by
            rw [h1]; exact h.count
          have htime : ({ st1 with sps := sps1 } : State K V α σ φ).time = i.time := by
            rw [h1]; exact h.time
          obtain ⟨w', sps', cols, e, k1, k2, k3, k4, _, k6⟩ := writeFile_ok hc.attrs
            (st := { st1 with sps := sps1 }) hw0 (w := w) (by simp only [hw1, hf]) hr
            (by rw [hcount]; omega) false
          rw [hcount] at k3 k4
          rw [htime] at k2 k3
          refine ⟨some w', sps', i.count, ?_, k1, by rw [hf]; rfl, ?_, by omega, fun _ => rfl⟩
          · rw [writeInitial, if_pos (by simp [hw1, hf])]
            exact e
          · rw [hf]
            refine ⟨w', rfl, k6 rfl, ?_, k4⟩
            rw [k2, hg]
            exact .cons k3 .nil
      obtain ⟨w2, sps2, last, e3, hs2, hw2, hf2, hle, hlast⟩ := hwrite
      rw [e3]
      simp only
      have hcl : st1.solver.charge.length = D := by rw [h1]; exact h.charge
      obtain ⟨sps3, log, e4, hs3, hlog⟩ := densities_ok hm (every := none) (by simp)
        (st := { st1 with writer := w2, sps := sps2 }) hs2 hcl hon'
      simp only [Spec.isDue, Bool.false_eq_true, if_false] at hlog
      cases hlog
      rw [e4]
      simp only
      have hphi : (Fld.solveForPhi cfg.bc cfg.solve
          { st1.solver with charge := (List.range D).map (Spec.chargeAt cfg ps) } true cfg.factor).phi =
          Spec.potential cfg D ps ∧
          (Fld.solveForPhi cfg.bc cfg.solve
          { st1.solver with charge := (List.range D).map (Spec.chargeAt cfg ps) } true
            cfg.factor).charge.length = D := by
        unfold Fld.solveForPhi Spec.potential
        cases cfg.factor with
        | none => simp
        | some f => simp [Function.comp_def]
      have e5 : ∃ solver4, writePhi cfg.fieldEvery.isSome (solveField cfg true { st1 with
            sps := sps3
            writer := w2
            solver := { st1.solver with charge := (List.range D).map (Spec.chargeAt cfg ps) }
            cellLog := st1.cellLog ++ [] }) = { st1 with
              sps := sps3
              writer := w2
              solver := solver4
              field := cfg.fieldOf (Spec.potential cfg D ps)
              phiLog := st1.phiLog ++ (if cfg.fieldEvery.isSome then
                [(st1.time, Spec.potential cfg D ps)] else []) } ∧
            solver4.phi = Spec.potential cfg D ps ∧ solver4.charge.length = D := by
        refine ⟨_, ?_, hphi.1, hphi.2⟩
        simp only [solveField, writePhi, List.append_nil]
        split
        · simp only [hphi.1]
        · simp only [hphi.1, List.append_nil]
      obtain ⟨solver4, e5, hp4, hc4⟩ := e5
      simp only [pure, Except.pure]
      rw [e5]
      obtain ⟨h6, sps6, e6, hs6, hh6⟩ := hrec { st1 with
              sps := sps3
              writer := w2
              solver := solver4
              field := cfg.fieldOf (Spec.potential cfg D ps)
              phiLog := st1.phiLog ++ (if cfg.fieldEvery.isSome then
                [(st1.time, Spec.potential cfg D ps)] else []) } ps (Spec.potential cfg D ps)
        (by simp only [h1]) (by simp only [h1]; exact h.count) (by simp only [h1]; exact h.time) hs3
      refine ⟨_, e6, ⟨?_, ?_, ?_, rfl, hp4, hc4, hs6⟩, rfl, ?_, last, ⟨?_, hh6, ?_, ?_⟩, hle, ?_⟩
      · simp only [h1]; exact h.count
      · simp only [h1]; exact h.time
      · simp only [h1]; exact h.side
      · exact hw2
      · simp only [Option.isSome_some, if_true, callOf, Ideal.filed, filed_looked]
        exact hf2
      · simp only [h1, firstPhis, Option.isSome_some, if_true]
        split <;> simp [h.time]
      · simp only [h1, h.cellLog]
        exact .nil
      · intro hsome
        simp [hlast hsome]

/-- What is left behind at the end. -/
structure Final (cfg : Cfg K V α σ φ) (sl D C : Nat) (d : Nat → Nat) (z : Species.HRow K)
    (st : State K V α σ φ) (i : Ideal K V α σ)
    (calls : Option (List (Output.Call (List (V × List α)) K))) (isOpen : Bool)
    (done : Option (List (Species.HRow K))) (plog : List (K × List K))
    (clog : List (K × Pop K V α)) : Prop where
  count : st.count = i.count
  time : st.time = i.time
  side : st.side = i.side
  phi : st.solver.phi = i.phi
  sps : List.Forall₂ (RelSp' sl D C) st.sps i.pops
  file : match calls with
    | none => st.writer = none
    | some cs => ∃ w, st.writer = some w ∧ w.file.isOpen = isOpen ∧
        List.Forall₂ (GroupOf cfg.attrs) cs w.file.groups
  hist : HistIs z st.hist done 0
  phiLog : st.phiLog = plog
  cellLog : List.Forall₂ (Spec.DensityOf cfg d C) clog st.cellLog

theorem finish_ok {cfg : Cfg K V α σ φ} {d : Nat → Nat} {sl D C : Nat}
    (hc : GoodCfg cfg) {z : Species.HRow K} {st : State K V α σ φ} {i : Ideal K V α σ}
    (h : Rel cfg sl D C st i)
    {calls : Option (List (Output.Call (List (V × List α)) K))} {last : Int}
    {done : Option (List (Species.HRow K))} {plog : List (K × List K)}
    {clog : List (K × Pop K V α)} (hl : Logs cfg d C z st calls last done 0 plog clog) :
    ∃ st', finish cfg st = .ok st' ∧ Final cfg sl D C d z st' i
      (calls.map (· ++ if last = i.count then [] else [callOf i])) (decide (last = i.count)) done
      plog clog := by
  have hw0 : List.Forall₂ (RelSp' sl D C) st.sps i.pops := h.sps.imp (fun _ _ k => k.weak)
  cases calls with
  | none =>
    have hf : st.writer = none := hl.file
    refine ⟨st, ?_, ⟨h.count, h.time, h.side, h.phi, hw0, hf, hl.hist, hl.phi, hl.cell⟩⟩
    unfold finish
    rw [hf]; rfl
  | some cs =>
    obtain ⟨w, hw, hr, hg, hls⟩ := hl.file
    have hfin : finish cfg st = writeFile cfg true st := by
      unfold finish
      rw [hw]; rfl
    rw [hfin]
    by_cases he : last = i.count
    · refine ⟨_, writeFile_same hw (by rw [h.count, hls, he]) true,
        ⟨h.count, h.time, h.side, h.phi, ?_, ?_, hl.hist, hl.phi, hl.cell⟩⟩
      · refine putSaps_weak hw0 ?_
        generalize st.sps = sps
        induction sps with
        | nil => exact .nil
        | cons sp sps ih => exact .cons (.refl _) ih
      · refine ⟨w, hw, ?_, ?_⟩
        · rw [hr.isOpen]; simp [he]
        · simpa [he] using hg
    · obtain ⟨w', sps', cols, e, h1, h2, h3, h4, h5, _⟩ := writeFile_ok hc.attrs hw0 hw hr
        (by rw [h.count, hls]; exact fun hcc => he hcc.symm) true
      refine ⟨_, e, ⟨h.count, h.time, h.side, h.phi, h1, ?_, hl.hist, hl.phi, hl.cell⟩⟩
      refine ⟨w', rfl, ?_, ?_⟩
      · rw [h5]; simp [he]
      · simp only [if_neg he]
        rw [h2]
        refine List.rel_append hg (.cons ?_ .nil)
        rw [h.count, h.time] at h3
        rw [h.time]
        exact h3

end TimeLoop
end Dt
