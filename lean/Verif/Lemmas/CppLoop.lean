import Verif.Model.CppLoop
import Verif.Spec.CppLoop
import Verif.Lemmas.TimeLoop
import Verif.Props.CppProgram

/-! # The time loop on compiled containers and on lists of particles -/

set_option linter.unusedSectionVars false

namespace Dt
namespace CppLoop
open TimeLoop (Cfg Src due due_ok GoodMesh multiplyAdd_range cellsOf phisOf dueStates_cons lastOf_cons
  firstPhis looked_empty)
open Spec (LState Pop Ideal)
open Spec.Comp (Fault)
variable {K V α σ φ : Type}

/-- The specification gives a result: so does the code, and they are related.  It raises: so does the
code.  Otherwise it says nothing. -/
def Agree {A B : Type} (P : A → B → Prop) : Except Fault A → Except Err B → Prop
  | .ok a, r => ∃ b, r = .ok b ∧ P a b
  | .error (.raises e), r => r = .error e
  | .error _, _ => True

theorem Agree.err {A A' B B' : Type} {P : A → B → Prop} {Q : A' → B' → Prop} {f : Fault}
    {r : Except Err B} (h : Agree P (.error f) r) (g : B → Except Err B') :
    Agree Q (.error f) (r >>= g) := by
  cases f with
  | raises e => simp only [Agree] at h ⊢; rw [h]; rfl
  | offMesh => trivial
  | huge => trivial

/-! ### Containers -/

/-- A container and a population. -/
def Holds (sl : Nat) (s : CSAP α) (st : LState α) : Prop :=
  CppProgram.Rel sl ⟨true, s⟩ ⟨true, st.items, st.stale⟩

theorem Holds.stores {sl : Nat} {s : CSAP α} {st : LState α} (h : Holds sl s st) :
    CStores s st.items := CppProgram.Rel.stores h

theorem look_ok {sl : Nat} {s : CSAP α} {st : LState α} (h : Holds sl s st) :
    ∃ s', look s = .ok (s', st.items) ∧ Holds sl s' ⟨st.items, decide (st.items ≠ [])⟩ := by
  obtain ⟨sp', e, hr⟩ := CppProgram.Rel.look h
  have hb : (!st.items.isEmpty) = decide (st.items ≠ []) := by cases st.items <;> rfl
  unfold CppProgram.look at e
  simp only [bind, Except.bind] at e
  unfold look
  split at e
  · cases e
  · rename_i r hq
    obtain ⟨s'', xs⟩ := r
    simp only [pure, Except.pure, Except.ok.injEq, Prod.mk.injEq, CppProgram.Obs.items.injEq] at e
    obtain ⟨rfl, rfl⟩ := e
    refine ⟨s'', hq, ?_⟩
    unfold Holds
    rw [← hb]
    exact hr

theorem pushOne_agree {sl : Nat} (array : Bool) (p : α) {s : CSAP α} {st : LState α}
    (h : Holds sl s st) :
    if array = true ∧ st.stale = true ∧ st.items ≠ [] ∧ st.items.length % sl = 0 then
      pushOne array p s = .error .abort
    else ∃ s', pushOne array p s = .ok s' ∧ Holds sl s' ⟨st.items ++ [p], st.stale⟩ := by
  cases array with
  | false =>
    rw [if_neg (by simp)]
    obtain ⟨sp', e, hr⟩ := CppProgram.createList_rel p _ _ h
    refine ⟨sp'.sap, ?_, ?_⟩
    · unfold pushOne
      simp [e, bind, Except.bind, pure, Except.pure]
    · have hc := hr.charged
      obtain ⟨c, s'⟩ := sp'
      simp only [Spec.Prog.append] at hr hc
      subst hc
      exact hr
  | true =>
    have key := CppProgram.createSource_rel p _ _ h
    have hiff : (Spec.Prog.full sl (⟨true, st.items, st.stale⟩ : Spec.Prog.LSp α) && st.stale) = true ↔
        (true = true ∧ st.stale = true ∧ st.items ≠ [] ∧ st.items.length % sl = 0) := by
      simp only [Spec.Prog.full, Bool.and_eq_true, decide_eq_true_eq]
      tauto
    by_cases hc : true = true ∧ st.stale = true ∧ st.items ≠ [] ∧ st.items.length % sl = 0
    · rw [if_pos hc]
      rw [if_pos (hiff.2 hc)] at key
      unfold pushOne
      simp [key, bind, Except.bind]
    · rw [if_neg hc]
      rw [if_neg (fun hcc => hc (hiff.1 hcc))] at key
      obtain ⟨sp', e, hr⟩ := key
      refine ⟨sp'.sap, ?_, ?_⟩
      · unfold pushOne
        simp [e, bind, Except.bind, pure, Except.pure]
      · have hc := hr.charged
        obtain ⟨c, s'⟩ := sp'
        simp only [Spec.Prog.append] at hr hc
        subst hc
        exact hr

theorem pushAll_agree {sl : Nat} (array : Bool) (ps : List α) {s : CSAP α} {st : LState α}
    (h : Holds sl s st) :
    Agree (fun st' s' => Holds sl s' st') (Spec.Comp.appendAll array sl st ps) (pushAll array ps s) := by
  induction ps generalizing s st with
  | nil => exact ⟨s, rfl, h⟩
  | cons p ps ih =>
    have key := pushOne_agree array p h
    simp only [Spec.Comp.appendAll, pushAll, List.foldlM_cons]
    by_cases hc : array = true ∧ st.stale = true ∧ st.items ≠ [] ∧ st.items.length % sl = 0
    · rw [if_pos hc] at key ⊢
      rw [key]; rfl
    · rw [if_neg hc] at key ⊢
      obtain ⟨s', e, hr⟩ := key
      rw [e]
      exact ih hr

theorem lastMoved_none (adv : Adv σ α) (xs : List α) (st : σ) (i o : Nat) :
    Spec.lastMoved (fun _ => false) adv st i o xs = Spec.lastFlag adv st i o xs := by
  induction xs generalizing st i o with
  | nil => rfl
  | cons x xs ih =>
    simp only [Spec.lastMoved, Spec.lastFlag, Bool.false_eq_true, if_false, ih]
    cases adv st i o (decide (o ≠ i)) x <;> rfl

theorem skipping_none (adv : Adv σ α) : Spec.skipping (fun _ => false) adv = adv := by
  funext st i o ic p
  simp [Spec.skipping]

/-! ### Species -/

/-- A species of the program and of the specification; its fields have `D` and `C` entries. -/
structure RelSp (sl D C : Nat) (sp : Sp K V α) (p : Pop K V α) : Prop where
  name : sp.name = p.name
  charge : sp.charge = p.charge
  mass : sp.mass = p.mass
  index : sp.index = p.index
  holds : Holds sl sp.sap p.st
  dof : sp.dof.length = D
  cell : sp.cell.length = C

/-- The same up to the position of the container. -/
def RelSp' (sl D C : Nat) (sp : Sp K V α) (p : Pop K V α) : Prop :=
  ∃ b, RelSp sl D C sp { p with st := ⟨p.st.items, b⟩ }

theorem RelSp.weak {sl D C : Nat} {sp : Sp K V α} {p : Pop K V α} (h : RelSp sl D C sp p) :
    RelSp' sl D C sp p := ⟨p.st.stale, h⟩

theorem lookAll_ok {sl D C : Nat} {sps : List (Sp K V α)} {pops : List (Pop K V α)}
    (h : List.Forall₂ (RelSp' sl D C) sps pops) :
    ∃ r, lookAll sps = .ok r ∧
      List.Forall₂ (RelSp sl D C) (r.map Prod.fst) (pops.map Spec.looked) ∧
      r.map (fun x => (x.1.index, x.2)) = pops.map (fun p => (p.index, p.st.items)) ∧
      r.map (fun x => (x.1.mass, x.2)) = pops.map (fun p => (p.mass, p.st.items)) := by
  induction h with
  | nil => exact ⟨[], rfl, .nil, rfl, rfl⟩
  | @cons sp p sps pops hd htl ih =>
    obtain ⟨b, hb⟩ := hd
    obtain ⟨s', e, hs⟩ := look_ok hb.holds
    obtain ⟨r, e2, h1, h2, h3⟩ := ih
    refine ⟨({ sp with sap := s' }, p.st.items) :: r, ?_, .cons ?_ h1, ?_, ?_⟩
    · simp only [lookAll, e, e2, bind, Except.bind, pure, Except.pure]
    · exact ⟨hb.name, hb.charge, hb.mass, hb.index, hs, hb.dof, hb.cell⟩
    · simp [h2, hb.index]
    · simp [h3, hb.mass]

theorem pushTo_agree {sl D C : Nat} (array : Bool) (name : String) (xs : List α)
    {sps : List (Sp K V α)} {pops : List (Pop K V α)} (h : List.Forall₂ (RelSp sl D C) sps pops) :
    Agree (fun a b => List.Forall₂ (RelSp sl D C) b a) (Spec.Comp.appendTo array sl name xs pops)
      (pushTo array name xs sps) := by
  induction h with
  | nil => rfl
  | @cons sp p sps pops hd htl ih =>
    simp only [Spec.Comp.appendTo, pushTo]
    by_cases hn : p.name = name
    · rw [if_pos hn, if_pos (hd.name.trans hn)]
      have key := pushAll_agree array xs hd.holds
      cases ha : Spec.Comp.appendAll array sl p.st xs with
      | error f => rw [ha] at key; exact key.err _
      | ok st' =>
        rw [ha] at key
        obtain ⟨b, e, hb⟩ := key
        rw [e]
        exact ⟨_, rfl, .cons ⟨hd.name, hd.charge, hd.mass, hd.index, hb, hd.dof, hd.cell⟩ htl⟩
    · rw [if_neg hn, if_neg (by rw [hd.name]; exact hn)]
      cases ha : Spec.Comp.appendTo array sl name xs pops with
      | error f => rw [ha] at ih; exact ih.err _
      | ok ps' =>
        rw [ha] at ih
        obtain ⟨b, e, hb⟩ := ih
        rw [e]
        exact ⟨_, rfl, .cons hd hb⟩

theorem addMore_agree {sl D C : Nat} (count : Int) (time : K) (srcs : List (Src K α σ))
    {sps : List (Sp K V α)} {pops : List (Pop K V α)} (h : List.Forall₂ (RelSp sl D C) sps pops)
    (side : σ) :
    Agree (fun a b => List.Forall₂ (RelSp sl D C) b.1 a.1 ∧ b.2 = a.2)
      (Spec.Comp.createAll sl count time srcs pops side)
      (Sources.addMore (srcs.map source) count time (sps, side)) := by
  induction srcs generalizing sps pops side with
  | nil => exact ⟨_, rfl, h, rfl⟩
  | cons s srcs ih =>
    simp only [Spec.Comp.createAll, Sources.addMore, List.map_cons, List.foldlM_cons]
    have hstep : ∀ w : List (Sp K V α) × σ, Sources.sourceStep count time w (source s) =
        if s.interval = 0 then .error .zerodiv
        else if count.fmod s.interval = 0 then (source s).fire count time w else .ok w := fun _ => rfl
    rw [hstep]
    by_cases h0 : s.interval = 0
    · rw [if_pos h0, if_pos h0]; rfl
    · rw [if_neg h0, if_neg h0]
      by_cases h1 : count.fmod s.interval = 0
      · rw [if_pos h1, if_pos h1]
        simp only [source]
        cases hm : s.make count time side with
        | error e => rfl
        | ok r =>
          obtain ⟨side', xs⟩ := r
          simp only [bind, Except.bind]
          have key := pushTo_agree true s.species xs h
          cases ha : Spec.Comp.appendTo true sl s.species xs pops with
          | error f =>
            rw [ha] at key
            cases f with
            | raises e => simp only [Agree] at key ⊢; rw [key]
            | offMesh => trivial
            | huge => trivial
          | ok ps' =>
            rw [ha] at key
            obtain ⟨b, e, hb⟩ := key
            rw [e]
            exact ih hb side'
      · rw [if_neg h1, if_neg h1]
        exact ih h side

theorem pushInitial_agree {sl D C : Nat} (groups : List (String × List α))
    {sps : List (Sp K V α)} {pops : List (Pop K V α)} (h : List.Forall₂ (RelSp sl D C) sps pops) :
    Agree (fun a b => List.Forall₂ (RelSp sl D C) b a) (Spec.Comp.appendGroups sl groups pops)
      (pushInitial groups sps) := by
  induction groups generalizing sps pops with
  | nil => exact ⟨_, rfl, h⟩
  | cons g groups ih =>
    simp only [Spec.Comp.appendGroups, pushInitial, List.foldlM_cons]
    have key := pushTo_agree false g.1 g.2 h
    cases ha : Spec.Comp.appendTo false sl g.1 g.2 pops with
    | error f => rw [ha] at key; exact key.err _
    | ok ps' =>
      rw [ha] at key
      obtain ⟨b, e, hb⟩ := key
      rw [e]
      exact ih hb

variable [Field K] [DecidableEq K]

theorem advance_agree {sl D C : Nat} (h2 : 2 ≤ sl) (mv : String → Adv σ α)
    {sps : List (Sp K V α)} {pops : List (Pop K V α)} (h : List.Forall₂ (RelSp sl D C) sps pops)
    (side : σ) :
    Agree (fun a b => List.Forall₂ (RelSp sl D C) b.1 a.1 ∧ b.2 = a.2)
      (Spec.Comp.moveAll sl mv pops side) (advanceCharged mv sps side) := by
  induction h generalizing side with
  | nil => exact ⟨_, rfl, .nil, rfl⟩
  | @cons sp p sps pops hd htl ih =>
    have hmove : Agree (fun a b => Holds sl b.1 a.1.st ∧ b.2 = a.2 ∧ a.1 = { p with st := a.1.st })
        (Spec.Comp.movePop sl mv p side) (advanceOne mv sp side) := by
      unfold Spec.Comp.movePop
      by_cases hq : p.charge = 0
      · rw [if_pos (Or.inl hq)]
        refine ⟨(sp.sap, side), ?_, hd.holds, rfl, rfl⟩
        unfold advanceOne
        rw [if_pos (by rw [hd.charge]; exact hq)]
      · have hadv : advanceOne mv sp side =
            CppMover.cppStep (fun _ => false) (mv p.name) sp.sap side := by
          unfold advanceOne
          rw [if_neg (by rw [hd.charge]; exact hq), hd.name]
        rw [hadv]
        by_cases hbig : 4294967296 ≤ p.st.items.length
        · by_cases h0 : p.st.items = []
          · rw [h0] at hbig; simp at hbig
          · rw [if_neg (by tauto), if_pos hbig]; trivial
        have key := CppProgram.Rel.step h2 hd.holds (Nat.lt_of_not_le hbig) (fun _ => false)
          (mv p.name) side
        rw [skipping_none, lastMoved_none] at key
        by_cases h0 : p.st.items = []
        · rw [if_pos h0] at key
          rw [if_pos (Or.inr h0)]
          exact ⟨_, key, hd.holds, rfl, rfl⟩
        · rw [if_neg h0] at key
          rw [if_neg (by tauto), if_neg hbig]
          cases hp : Spec.pass (mv p.name) side 0 0 p.st.items with
          | error e => rw [hp] at key; exact key
          | ok r =>
            obtain ⟨side', ys⟩ := r
            rw [hp] at key
            obtain ⟨s', e, hr⟩ := key
            exact ⟨_, e, hr, rfl, rfl⟩
    simp only [Spec.Comp.moveAll, advanceCharged]
    cases hm : Spec.Comp.movePop sl mv p side with
    | error f => rw [hm] at hmove; exact hmove.err _
    | ok r =>
      obtain ⟨p', side'⟩ := r
      rw [hm] at hmove
      obtain ⟨⟨t, s2⟩, e, h1, h2, h3⟩ := hmove
      simp only at h1 h2 h3
      subst h2
      rw [e]
      have := ih s2
      simp only [bind, Except.bind, pure, Except.pure]
      cases hr : Spec.Comp.moveAll sl mv pops s2 with
      | error f => rw [hr] at this; exact this.err _
      | ok r2 =>
        rw [hr] at this
        obtain ⟨b, e2, h4, h5⟩ := this
        rw [e2]
        refine ⟨_, rfl, .cons ?_ h4, h5⟩
        rw [h3]
        exact ⟨hd.name, hd.charge, hd.mass, hd.index, h1, hd.dof, hd.cell⟩

/-! ### Densities -/

theorem accumulate_one {cfg : Cfg K V α σ φ} {onMesh : α → Bool} {d : Nat → Nat} {sl D C : Nat}
    (hm : GoodMesh cfg onMesh d D C) {s : CSAP α} {st : LState α} (h : Holds sl s st)
    (hon : st.items.all onMesh = true) :
    ∃ s' cell', accumulate cfg s (List.replicate D 0) (List.replicate C 0) = .ok (s',
          (List.range D).map (fun j => (st.items.map (Spec.contrib cfg.A cfg.SD j)).sum), cell') ∧
      Holds sl s' ⟨st.items, decide (st.items ≠ [])⟩ ∧ cell'.length = C ∧
      ∀ k < cfg.ncell, cell'.getD (d k) 0 =
        ((st.items.filter (fun p => cfg.A.cell p = k)).map cfg.A.weight).sum / cfg.vol k := by
  have hon' : ∀ p ∈ st.items, onMesh p = true := by simpa using hon
  have hc : ∀ p ∈ st.items, cfg.A.cell p < cfg.ncell := fun p hp => hm.cell p (hon' p hp)
  obtain ⟨s', e, hs'⟩ := look_ok h
  have hfold := Fld.accumulateOne_fold (A := cfg.A) (SD := cfg.SD) (SC := cfg.SC) st.items
    (some (List.replicate D (0 : K))) (some (List.replicate C (0 : K)))
    (by rintro v hv p hp
        cases hv
        simpa using hm.fits p (hon' p hp))
    (by rintro w hw p hp i hi
        cases hw
        rw [hm.cells.one _ (hc p hp)] at hi
        simp only [List.mem_singleton] at hi
        rw [List.length_replicate, hi]
        exact hm.cells.range _ (hc p hp))
  have hdiv := Fld.divideByVolumes_ok (S := cfg.SC) (v := Fld.weighAll cfg.A cfg.SC st.items
      (List.replicate C (0 : K))) cfg.vol cfg.ncell (by
        intro k hk i hi
        rw [hm.cells.one k hk] at hi
        simp only [List.mem_singleton] at hi
        rw [Fld.weighAll_length, List.length_replicate, hi]
        exact hm.cells.range k hk)
  have hdep : Fld.depositAll cfg.A cfg.SD st.items (List.replicate D (0 : K)) =
      (List.range D).map (fun j => (st.items.map (Spec.contrib cfg.A cfg.SD j)).sum) := by
    apply List.ext_getElem
    · simp
    · intro j h1 h2
      simp [Fld.depositAll]
  refine ⟨s', (Fld.weighAll cfg.A cfg.SC st.items (List.replicate C (0 : K))).mapIdx (fun j x =>
        (((List.range cfg.ncell).filter (fun k => decide (j ∈ cfg.SC.dofs k))).map cfg.vol).foldl
          (· / ·) x), ?_, hs', ?_, ?_⟩
  · unfold accumulate
    simp only [e, hfold, bind, Except.bind, Option.map_some, Option.getD_some, hdiv, pure, Except.pure,
      hdep]
  · simp
  · intro k hk
    have hj := hm.cells.range k hk
    have hw : (st.items.map (fun p => if d k ∈ cfg.SC.dofs (cfg.A.cell p) then cfg.A.weight p else 0)).sum =
        ((st.items.filter (fun p => cfg.A.cell p = k)).map cfg.A.weight).sum := by
      clear e hfold hdiv hdep h hon hon'
      generalize st.items = xs at hc
      induction xs with
      | nil => rfl
      | cons p ps ih =>
        have hp := hc p (by simp)
        rw [List.map_cons, List.sum_cons, ih (fun q hq => hc q (by simp [hq])), List.filter_cons,
          hm.cells.one _ hp]
        by_cases hpk : cfg.A.cell p = k
        · rw [hpk]; simp
        · have : d k ≠ d (cfg.A.cell p) := fun e => hpk (hm.cells.inj k hk _ hp e).symm
          simp [hpk, this]
    simp only [Fld.weighAll, Fld.mapIdx_comp]
    rw [List.getD_eq_getElem?_getD]
    simp [hj, Fld.divisors hm.cells hk, hw]

theorem accumulateAll_ok {cfg : Cfg K V α σ φ} {onMesh : α → Bool} {d : Nat → Nat} {sl D C : Nat}
    (hm : GoodMesh cfg onMesh d D C) {every : Option Int} (hev : every ≠ some 0) (count : Int)
    (time : K) {sps : List (Sp K V α)} {pops : List (Pop K V α)}
    (h : List.Forall₂ (RelSp' sl D C) sps pops)
    (hz : ∀ sp ∈ sps, sp.dof = List.replicate D 0 ∧ sp.cell = List.replicate C 0)
    (hon : ∀ p ∈ pops, p.st.items.all onMesh = true) (g : Nat → K) :
    ∃ sps' log, accumulateAll cfg every count time sps ((List.range D).map g) =
        .ok (sps', (List.range D).map (fun j => g j + Spec.chargeAt cfg pops j), log) ∧
      List.Forall₂ (RelSp sl D C) sps' (pops.map Spec.looked) ∧
      List.Forall₂ (Spec.DensityOf cfg d C)
        (if Spec.isDue every count then pops.map (fun p => (time, Spec.looked p)) else []) log := by
  induction h generalizing g with
  | nil =>
    refine ⟨[], [], ?_, .nil, ?_⟩
    · simp [accumulateAll, Spec.chargeAt]
    · split <;> exact .nil
  | @cons sp p sps pops hd htl ih =>
    obtain ⟨b, hb⟩ := hd
    obtain ⟨hz1, hz2⟩ := hz sp (by simp)
    obtain ⟨s', cell', e, hs', hl, hcell⟩ := accumulate_one hm hb.holds (hon p (by simp))
    obtain ⟨sps', log, e2, h2, h3⟩ := ih (fun sp h => hz sp (List.mem_cons_of_mem _ h))
      (fun p h => hon p (List.mem_cons_of_mem _ h))
      (fun j => g j + sp.charge * (p.st.items.map (Spec.contrib cfg.A cfg.SD j)).sum)
    refine ⟨{ sp with
        sap := s'
        dof := (List.range D).map (fun j => (p.st.items.map (Spec.contrib cfg.A cfg.SD j)).sum)
        cell := cell' } :: sps',
      (if Spec.isDue every count then [(sp.name, time, cell')] else []) ++ log, ?_, .cons ?_ h2, ?_⟩
    · simp only [accumulateAll, hz1, hz2, e, bind, Except.bind, due_ok hev,
        multiplyAdd_range, e2, pure, Except.pure]
      congr 3
      apply List.map_congr_left
      intro j _
      simp only [Spec.chargeAt, List.map_cons, List.sum_cons, hb.charge]
      ring
    · exact ⟨hb.name, hb.charge, hb.mass, hb.index, hs', by simp, hl⟩
    · by_cases hdue : Spec.isDue every count = true
      · rw [if_pos hdue] at h3 ⊢
        rw [if_pos hdue]
        exact .cons ⟨hb.name, rfl, hl, hcell⟩ h3
      · rw [if_neg hdue] at h3 ⊢
        rw [if_neg hdue]
        exact h3

theorem densities_ok {cfg : Cfg K V α σ φ} {onMesh : α → Bool} {d : Nat → Nat} {sl D C : Nat}
    (hm : GoodMesh cfg onMesh d D C) {every : Option Int} (hev : every ≠ some 0)
    {st : State K V α σ φ} {pops : List (Pop K V α)}
    (h : List.Forall₂ (RelSp' sl D C) st.sps pops) (hD : st.solver.charge.length = D)
    (hon : ∀ p ∈ pops, p.st.items.all onMesh = true) :
    ∃ sps' log, densities cfg every st = .ok { st with
        sps := sps'
        solver := { st.solver with charge := (List.range D).map (Spec.chargeAt cfg pops) }
        cellLog := st.cellLog ++ log } ∧
      List.Forall₂ (RelSp sl D C) sps' (pops.map Spec.looked) ∧
      List.Forall₂ (Spec.DensityOf cfg d C) (if Spec.isDue every st.count then
        pops.map (fun p => (st.time, Spec.looked p)) else []) log := by
  have hrel : List.Forall₂ (RelSp' sl D C) (st.sps.map (fun sp =>
      { sp with dof := Fld.setValues sp.dof 0, cell := Fld.setValues sp.cell 0 })) pops := by
    clear hD
    generalize st.sps = sps at h
    induction h with
    | nil => exact .nil
    | cons hd htl ih =>
      obtain ⟨b, hb⟩ := hd
      refine .cons ⟨b, hb.name, hb.charge, hb.mass, hb.index, hb.holds, ?_, ?_⟩
        (ih (fun p hp => hon p (List.mem_cons_of_mem _ hp)))
      · simpa [Fld.setValues] using hb.dof
      · simpa [Fld.setValues] using hb.cell
  have hz : ∀ sp ∈ st.sps.map (fun sp =>
      { sp with dof := Fld.setValues sp.dof 0, cell := Fld.setValues sp.cell 0 }),
      sp.dof = List.replicate D 0 ∧ sp.cell = List.replicate C 0 := by
    intro sp hsp
    obtain ⟨q, hq, rfl⟩ := List.mem_map.1 hsp
    have : q.dof.length = D ∧ q.cell.length = C := by
      clear hrel hsp
      generalize st.sps = sps at h hq
      induction h with
      | nil => simp at hq
      | cons hd htl ih =>
        rcases List.mem_cons.1 hq with rfl | hq
        · obtain ⟨b, hb⟩ := hd
          exact ⟨hb.dof, hb.cell⟩
        · exact ih (fun p hp => hon p (List.mem_cons_of_mem _ hp)) hq
    simp [Fld.setValues, this.1, this.2]
  have hv : Fld.setValues st.solver.charge 0 = (List.range D).map (fun _ => (0 : K)) := by
    simp [Fld.setValues, hD]
  obtain ⟨sps', log, e, h1, h2⟩ := accumulateAll_ok hm hev st.count st.time hrel hz hon (fun _ => 0)
  refine ⟨sps', log, ?_, h1, h2⟩
  simp only [densities, hv, e, bind, Except.bind, pure, Except.pure, zero_add]

theorem solve_phi (cfg : Cfg K V α σ φ) (D : Nat) (pops : List (Pop K V α)) (s : Fld.SolveSt K) :
    (Fld.solveForPhi cfg.bc cfg.solve
        { s with charge := (List.range D).map (Spec.chargeAt cfg pops) } true cfg.factor).phi =
      Spec.potential cfg D pops ∧
    (Fld.solveForPhi cfg.bc cfg.solve
        { s with charge := (List.range D).map (Spec.chargeAt cfg pops) } true
        cfg.factor).charge.length = D := by
  unfold Fld.solveForPhi Spec.potential
  cases cfg.factor with
  | none => simp
  | some f => simp [Function.comp_def]

/-! ### One step, all steps -/

/-- The state of the program and of the specification between steps. -/
structure Rel (cfg : Cfg K V α σ φ) (sl D C : Nat) (st : State K V α σ φ) (i : Ideal K V α σ) : Prop where
  count : st.count = i.count
  time : st.time = i.time
  side : st.side = i.side
  field : st.field = cfg.fieldOf i.phi
  phi : st.solver.phi = i.phi
  charge : st.solver.charge.length = D
  sps : List.Forall₂ (RelSp sl D C) st.sps i.pops

/-- What the particle file gets for a state. -/
def groupI (i : Ideal K V α σ) : Int × K × List (V × List α) := (i.count, i.time, i.filed)

/-- What the histories get for a state. -/
def rowI (i : Ideal K V α σ) : Int × K × List (K × List α) := (i.count, i.time, i.massed)

/-- Everything written and recorded so far. -/
structure Logs (cfg : Cfg K V α σ φ) (d : Nat → Nat) (C : Nat) (skip : Int)
    (st : State K V α σ φ) (groups : Option (List (Int × K × List (V × List α)))) (last : Int)
    (rows : Option (List (Int × K × List (K × List α)))) (plog : List (K × List K))
    (clog : List (K × Pop K V α)) : Prop where
  file : st.file = groups.map (fun g => ⟨last, g⟩)
  hist : st.hist = rows.map (fun r => ⟨skip, r⟩)
  phi : st.phiLog = plog
  cell : List.Forall₂ (Spec.DensityOf cfg d C) clog st.cellLog

/-- What the theorems require of the control parameters. -/
structure GoodEvery (cfg : Cfg K V α σ φ) : Prop where
  part : cfg.partEvery ≠ some 0
  cell : cfg.cellEvery ≠ some 0
  field : cfg.fieldEvery ≠ some 0

theorem looked_looked (pops : List (Pop K V α)) :
    (pops.map Spec.looked).map Spec.looked = pops.map Spec.looked := by
  simp [Function.comp_def, Spec.looked]

theorem weak_looked {sl D C : Nat} {sps : List (Sp K V α)} {pops : List (Pop K V α)}
    (h : List.Forall₂ (RelSp sl D C) sps (pops.map Spec.looked)) :
    List.Forall₂ (RelSp' sl D C) sps pops := by
  induction pops generalizing sps with
  | nil => cases h; exact .nil
  | cons p pops ih =>
    rw [List.map_cons] at h
    cases h with
    | cons hd htl => exact .cons ⟨_, hd⟩ (ih htl)

theorem writeFile_ok {sl D C : Nat} {st : State K V α σ φ} {pops : List (Pop K V α)}
    (h : List.Forall₂ (RelSp' sl D C) st.sps pops) {f : File K V α} (hf : st.file = some f)
    (hne : st.count ≠ f.last) :
    ∃ sps', writeFile st = .ok { st with
        sps := sps'
        file := some ⟨st.count, f.groups ++ [(st.count, st.time,
          pops.map (fun p => (p.index, p.st.items)))]⟩ } ∧
      List.Forall₂ (RelSp' sl D C) sps' pops := by
  obtain ⟨r, e, h1, h2, -⟩ := lookAll_ok h
  refine ⟨r.map Prod.fst, ?_, weak_looked h1⟩
  unfold writeFile
  rw [hf]
  simp only [if_neg hne, e, bind, Except.bind, pure, Except.pure, h2]

theorem recordHist_ok {sl D C : Nat} {st : State K V α σ φ} {pops : List (Pop K V α)}
    (h : List.Forall₂ (RelSp sl D C) st.sps (pops.map Spec.looked)) (hi : Hist K α) :
    ∃ sps', recordHist hi st = .ok { st with
        sps := sps'
        hist := some ⟨hi.skip, hi.rows ++ [(st.count, st.time,
          pops.map (fun p => (p.mass, p.st.items)))]⟩ } ∧
      List.Forall₂ (RelSp sl D C) sps' (pops.map Spec.looked) := by
  obtain ⟨r, e, h1, -, h3⟩ := lookAll_ok (weak_looked h)
  refine ⟨r.map Prod.fst, ?_, h1⟩
  unfold recordHist
  simp only [e, bind, Except.bind, pure, Except.pure, h3]

/-- The particles are determined; the rest of a step. -/
theorem settle_agree {cfg : Cfg K V α σ φ} {onMesh : α → Bool} {d : Nat → Nat} {sl D C : Nat}
    (hc : GoodEvery cfg) (hm : GoodMesh cfg onMesh d D C) {skip : Int} (hskip : skip ≠ 0)
    {st : State K V α σ φ} {pops : List (Pop K V α)}
    (h : List.Forall₂ (RelSp sl D C) st.sps pops) (hD : st.solver.charge.length = D)
    {groups : Option (List (Int × K × List (V × List α)))} {last : Int}
    {rows : Option (List (Int × K × List (K × List α)))} {plog : List (K × List K)}
    {clog : List (K × Pop K V α)} (hl : Logs cfg d C skip st groups last rows plog clog)
    (hlast : last < st.count) (hnone : groups = none → cfg.partEvery = none) :
    Agree (fun i st' => Rel cfg sl D C st' i ∧
        Logs cfg d C skip st' (groups.map (· ++ (Spec.dueStates cfg.partEvery [i]).map groupI))
          (if Spec.isDue cfg.partEvery i.count then i.count else last)
          (rows.map (· ++ (Spec.dueStates (some skip) [i]).map rowI))
          (plog ++ phisOf (Spec.dueStates cfg.fieldEvery [i]))
          (clog ++ cellsOf (Spec.dueStates cfg.cellEvery [i])))
      (Spec.Comp.settle cfg D onMesh st.count st.time pops st.side)
      (do let st2 ← writeDue cfg st
          let st3 ← densities cfg cfg.cellEvery st2
          let st4 ← solveDue cfg st3
          histDue st4) := by
  unfold Spec.Comp.settle
  by_cases hon : pops.all (fun p => p.st.items.all onMesh) = true
  swap
  · rw [if_neg hon]; trivial
  rw [if_pos hon]
  have hon' : ∀ p ∈ pops, p.st.items.all onMesh = true := by simpa using hon
  have hw0 : List.Forall₂ (RelSp' sl D C) st.sps pops := h.imp (fun _ _ k => k.weak)
  -- the particle file
  have hwrite : ∃ sps2, writeDue cfg st = .ok { st with
        file := (groups.map (· ++ if Spec.isDue cfg.partEvery st.count then
          [(st.count, st.time, pops.map (fun p => (p.index, p.st.items)))] else [])).map (fun g =>
            ⟨if Spec.isDue cfg.partEvery st.count then st.count else last, g⟩)
        sps := sps2 } ∧
      List.Forall₂ (RelSp' sl D C) sps2 pops := by
    unfold writeDue
    simp only [due_ok hc.part, bind, Except.bind]
    by_cases hdue : Spec.isDue cfg.partEvery st.count = true
    · simp only [if_pos hdue]
      cases groups with
      | none => rw [hnone rfl] at hdue; cases hdue
      | some cs =>
        obtain ⟨sps', e, h1⟩ := writeFile_ok hw0 (f := ⟨last, cs⟩) (by rw [hl.file]; rfl)
          (by simp only; omega)
        exact ⟨sps', by simpa using e, h1⟩
    · simp only [if_neg hdue]
      refine ⟨st.sps, ?_, hw0⟩
      have := hl.file
      cases groups with
      | none => simp only [Option.map_none] at this ⊢; rw [← this]
      | some cs =>
        simp only [Option.map_some, List.append_nil] at this ⊢
        rw [← this]
  obtain ⟨sps2, e2, hs2⟩ := hwrite
  generalize hw2 : (groups.map (· ++ if Spec.isDue cfg.partEvery st.count then
          [(st.count, st.time, pops.map (fun p => (p.index, p.st.items)))] else [])).map (fun g =>
            (⟨if Spec.isDue cfg.partEvery st.count then st.count else last, g⟩ : File K V α)) = w2 at e2
  obtain ⟨sps3, log, e3, hs3, hlog⟩ := densities_ok hm hc.cell
    (st := { st with file := w2, sps := sps2 }) hs2 hD hon'
  dsimp only at e3 hlog
  -- the field
  have hphi := solve_phi cfg D pops st.solver
  have e4 : ∃ solver4, solveDue cfg { st with
        sps := sps3
        file := w2
        solver := { st.solver with charge := (List.range D).map (Spec.chargeAt cfg pops) }
        cellLog := st.cellLog ++ log } = .ok { st with
          sps := sps3
          file := w2
          solver := solver4
          field := cfg.fieldOf (Spec.potential cfg D pops)
          phiLog := st.phiLog ++ (if Spec.isDue cfg.fieldEvery st.count then
            [(st.time, Spec.potential cfg D pops)] else [])
          cellLog := st.cellLog ++ log } ∧
        solver4.phi = Spec.potential cfg D pops ∧ solver4.charge.length = D := by
    refine ⟨_, ?_, hphi.1, hphi.2⟩
    simp only [solveDue, due_ok hc.field, bind, Except.bind, pure, Except.pure, solveField, writePhi]
    split
    · simp only [hphi.1]
    · simp only [hphi.1, List.append_nil]
  obtain ⟨solver4, e4, hp4, hc4⟩ := e4
  -- the histories
  have e5 : ∃ sps5, histDue { st with
          sps := sps3
          file := w2
          solver := solver4
          field := cfg.fieldOf (Spec.potential cfg D pops)
          phiLog := st.phiLog ++ (if Spec.isDue cfg.fieldEvery st.count then
            [(st.time, Spec.potential cfg D pops)] else [])
          cellLog := st.cellLog ++ log } = .ok { st with
          sps := sps5
          hist := (rows.map (· ++ if Spec.isDue (some skip) st.count then
            [(st.count, st.time, pops.map (fun p => (p.mass, p.st.items)))] else [])).map (fun r =>
              ⟨skip, r⟩)
          file := w2
          solver := solver4
          field := cfg.fieldOf (Spec.potential cfg D pops)
          phiLog := st.phiLog ++ (if Spec.isDue cfg.fieldEvery st.count then
            [(st.time, Spec.potential cfg D pops)] else [])
          cellLog := st.cellLog ++ log } ∧
        List.Forall₂ (RelSp sl D C) sps5 (pops.map Spec.looked) := by
    unfold histDue
    dsimp only
    have hh := hl.hist
    cases rows with
    | none =>
      simp only [Option.map_none] at hh
      rw [hh]
      exact ⟨sps3, rfl, hs3⟩
    | some rows =>
      simp only [Option.map_some] at hh
      rw [hh]
      simp only [due_ok (show (some skip : Option Int) ≠ some 0 by simpa using hskip), bind, Except.bind,
        Option.map_some]
      by_cases hdue : Spec.isDue (some skip) st.count = true
      · simp only [if_pos hdue]
        exact recordHist_ok (st := { st with
          sps := sps3
          file := w2
          hist := some ⟨skip, rows⟩
          solver := solver4
          field := cfg.fieldOf (Spec.potential cfg D pops)
          phiLog := st.phiLog ++ (if Spec.isDue cfg.fieldEvery st.count then
            [(st.time, Spec.potential cfg D pops)] else [])
          cellLog := st.cellLog ++ log }) hs3 ⟨skip, rows⟩
      · simp only [if_neg hdue, List.append_nil]
        exact ⟨sps3, rfl, hs3⟩
  obtain ⟨sps5, e5, hs5⟩ := e5
  refine ⟨{ st with
          sps := sps5
          hist := (rows.map (· ++ if Spec.isDue (some skip) st.count then
            [(st.count, st.time, pops.map (fun p => (p.mass, p.st.items)))] else [])).map (fun r =>
              ⟨skip, r⟩)
          file := w2
          solver := solver4
          field := cfg.fieldOf (Spec.potential cfg D pops)
          phiLog := st.phiLog ++ (if Spec.isDue cfg.fieldEvery st.count then
            [(st.time, Spec.potential cfg D pops)] else [])
          cellLog := st.cellLog ++ log }, ?_, ⟨rfl, rfl, rfl, rfl, hp4, hc4, hs5⟩, ?_, ?_, ?_, ?_⟩
  · simp only [e2, bind, Except.bind]
    rw [e3]
    dsimp only
    rw [e4]
    dsimp only
    rw [e5]
  · simp only [Spec.dueStates, List.filter_cons, List.filter_nil]
    rw [← hw2]
    by_cases hdue : Spec.isDue cfg.partEvery st.count = true
    · simp [hdue, groupI, Ideal.filed, Function.comp_def, Spec.looked]
    · simp [hdue]
  · simp only [Spec.dueStates, List.filter_cons, List.filter_nil]
    by_cases hdue : Spec.isDue (some skip) st.count = true
    · simp [hdue, rowI, Ideal.massed, Function.comp_def, Spec.looked]
    · simp [hdue]
  · simp only [hl.phi, phisOf, Spec.dueStates, List.filter_cons, List.filter_nil]
    by_cases hdue : Spec.isDue cfg.fieldEvery st.count = true
    · simp [hdue]
    · simp [hdue]
  · refine List.rel_append hl.cell ?_
    simp only [cellsOf, Spec.dueStates, List.filter_cons, List.filter_nil]
    by_cases hdue : Spec.isDue cfg.cellEvery st.count = true
    · simp only [if_pos hdue] at hlog ⊢
      simpa [Function.comp_def] using hlog
    · simp only [if_neg hdue] at hlog ⊢
      simpa using hlog

theorem step_agree {cfg : Cfg K V α σ φ} {onMesh : α → Bool} {d : Nat → Nat} {sl D C : Nat}
    (h2 : 2 ≤ sl) (hc : GoodEvery cfg) (hm : GoodMesh cfg onMesh d D C) {skip : Int} (hskip : skip ≠ 0)
    {st : State K V α σ φ} {i : Ideal K V α σ} (h : Rel cfg sl D C st i)
    {groups : Option (List (Int × K × List (V × List α)))} {last : Int}
    {rows : Option (List (Int × K × List (K × List α)))} {plog : List (K × List K)}
    {clog : List (K × Pop K V α)} (hl : Logs cfg d C skip st groups last rows plog clog)
    (hlast : last ≤ i.count) (hnone : groups = none → cfg.partEvery = none) :
    Agree (fun i' st' => Rel cfg sl D C st' i' ∧
        Logs cfg d C skip st' (groups.map (· ++ (Spec.dueStates cfg.partEvery [i']).map groupI))
          (if Spec.isDue cfg.partEvery i'.count then i'.count else last)
          (rows.map (· ++ (Spec.dueStates (some skip) [i']).map rowI))
          (plog ++ phisOf (Spec.dueStates cfg.fieldEvery [i']))
          (clog ++ cellsOf (Spec.dueStates cfg.cellEvery [i'])))
      (Spec.Comp.step cfg sl D onMesh i) (step cfg st) := by
  simp only [Spec.Comp.step, step, particles, h.field, h.count, h.time, h.side]
  have h1 := advance_agree h2
    (fun sn => cfg.move sn (cfg.fieldOf i.phi) (i.count + 1) (i.time + cfg.dt)) h.sps i.side
  cases hmv : Spec.Comp.moveAll sl
      (fun sn => cfg.move sn (cfg.fieldOf i.phi) (i.count + 1) (i.time + cfg.dt)) i.pops i.side with
  | error f =>
    rw [hmv] at h1
    cases f with
    | raises e => simp only [Agree] at h1 ⊢; rw [h1]; rfl
    | offMesh => trivial
    | huge => trivial
  | ok r =>
    obtain ⟨ps, side⟩ := r
    rw [hmv] at h1
    obtain ⟨⟨sps1, side1⟩, e1, hs1, hside⟩ := h1
    simp only at hs1 hside
    subst hside
    rw [e1]
    simp only [bind, Except.bind]
    have h2 := addMore_agree (i.count + 1) (i.time + cfg.dt) cfg.sources hs1 side1
    cases hcr : Spec.Comp.createAll sl (i.count + 1) (i.time + cfg.dt) cfg.sources ps side1 with
    | error f =>
      rw [hcr] at h2
      cases f with
      | raises e => simp only [Agree] at h2 ⊢; rw [h2]
      | offMesh => trivial
      | huge => trivial
    | ok r2 =>
      obtain ⟨ps2, side2⟩ := r2
      rw [hcr] at h2
      obtain ⟨⟨sps2, side3⟩, e2, hs2, hside⟩ := h2
      simp only at hs2 hside
      subst hside
      rw [e2]
      exact settle_agree hc hm hskip (st := { st with
        count := i.count + 1, time := i.time + cfg.dt, sps := sps2, side := side3, field := cfg.fieldOf i.phi }) (pops := ps2)
        hs2 h.charge (groups := groups) (last := last) (rows := rows) (plog := plog)
        (clog := clog) ⟨hl.file, hl.hist, hl.phi, hl.cell⟩ (by simp only; omega) hnone

theorem step_count {cfg : Cfg K V α σ φ} {sl D : Nat} {onMesh : α → Bool} {i i' : Ideal K V α σ}
    (h : Spec.Comp.step cfg sl D onMesh i = .ok i') : i'.count = i.count + 1 := by
  unfold Spec.Comp.step at h
  dsimp only at h
  split at h
  · cases h
  · split at h
    · cases h
    · unfold Spec.Comp.settle at h
      split at h
      · cases h; rfl
      · cases h

theorem due_cons (every : Option Int) (i : Ideal K V α σ) (is : List (Ideal K V α σ)) :
    Spec.dueStates every (i :: is) = Spec.dueStates every [i] ++ Spec.dueStates every is := by
  rw [← List.singleton_append, Spec.dueStates, List.filter_append]; rfl

theorem lastOf_more (i0 i : Ideal K V α σ) (is : List (Ideal K V α σ)) :
    Spec.lastOf i0 (i :: is) = Spec.lastOf i is := by
  cases is with
  | nil => rfl
  | cons j js =>
    unfold Spec.lastOf
    rw [List.getLast?_cons_cons]
    simp [List.getLast?_cons]

theorem looked_nothing {pops : List (Pop K V α)} (h : ∀ p ∈ pops, p.st = ⟨[], false⟩) :
    pops.map Spec.looked = pops := by
  have : pops.map Spec.looked = pops.map id := by
    apply List.map_congr_left
    intro p hp
    have := h p hp
    obtain ⟨_, _, _, _, st⟩ := p
    simp only at this
    subst this
    rfl
  rw [this, List.map_id]

theorem steps_agree {cfg : Cfg K V α σ φ} {onMesh : α → Bool} {d : Nat → Nat} {sl D C : Nat}
    (h2 : 2 ≤ sl) (hc : GoodEvery cfg) (hm : GoodMesh cfg onMesh d D C) {skip : Int} (hskip : skip ≠ 0)
    (n : Nat) {st : State K V α σ φ} {i : Ideal K V α σ} (h : Rel cfg sl D C st i)
    {groups : Option (List (Int × K × List (V × List α)))} {last : Int}
    {rows : Option (List (Int × K × List (K × List α)))} {plog : List (K × List K)}
    {clog : List (K × Pop K V α)} (hl : Logs cfg d C skip st groups last rows plog clog)
    (hlast : last ≤ i.count) (hnone : groups = none → cfg.partEvery = none) :
    Agree (fun is st' => Rel cfg sl D C st' (Spec.lastOf i is) ∧ is.length = n ∧
        ∃ last', Logs cfg d C skip st' (groups.map (· ++ (Spec.dueStates cfg.partEvery is).map groupI))
          last' (rows.map (· ++ (Spec.dueStates (some skip) is).map rowI))
          (plog ++ phisOf (Spec.dueStates cfg.fieldEvery is))
          (clog ++ cellsOf (Spec.dueStates cfg.cellEvery is)) ∧
        last' ≤ (Spec.lastOf i is).count ∧
        (is = [] → last' = last) ∧
        (is ≠ [] → (last' = (Spec.lastOf i is).count ↔
          Spec.isDue cfg.partEvery (Spec.lastOf i is).count = true)))
      (Spec.Comp.steps cfg sl D onMesh n i) (steps cfg n st) := by
  induction n generalizing st i groups last rows plog clog with
  | zero =>
    refine ⟨st, rfl, h, rfl, last, ?_, hlast, fun _ => rfl, fun hne => absurd rfl hne⟩
    have e1 : groups.map (· ++ (Spec.dueStates cfg.partEvery ([] : List (Ideal K V α σ))).map groupI)
        = groups := by cases groups <;> simp [Spec.dueStates]
    have e2 : rows.map (· ++ (Spec.dueStates (some skip) ([] : List (Ideal K V α σ))).map rowI) = rows := by
      cases rows <;> simp [Spec.dueStates]
    rw [e1, e2]
    simpa [phisOf, cellsOf, Spec.dueStates] using hl
  | succ n ih =>
    simp only [Spec.Comp.steps, steps]
    have h1 := step_agree h2 hc hm hskip h hl hlast hnone
    cases hs : Spec.Comp.step cfg sl D onMesh i with
    | error f => rw [hs] at h1; exact h1.err _
    | ok i' =>
      have hcount := step_count hs
      rw [hs] at h1
      obtain ⟨st', e1, hr, hl'⟩ := h1
      rw [e1]
      simp only [bind, Except.bind]
      have h2 := ih hr hl' (by split <;> omega) (by
        intro hn
        cases groups with
        | none => exact hnone rfl
        | some cs => simp at hn)
      cases hss : Spec.Comp.steps cfg sl D onMesh n i' with
      | error f =>
        rw [hss] at h2
        cases f with
        | raises e => exact h2
        | offMesh => trivial
        | huge => trivial
      | ok is =>
        rw [hss] at h2
        obtain ⟨st'', e2, hr2, hlen, last', hl2, hle, hnil, hne⟩ := h2
        refine ⟨st'', e2, ?_, by simp [hlen], last', ?_, ?_, by simp, ?_⟩
        · rw [lastOf_more]; exact hr2
        · rw [due_cons cfg.partEvery, due_cons cfg.fieldEvery,
            due_cons cfg.cellEvery, due_cons (some skip)]
          have e3 : groups.map (· ++ (Spec.dueStates cfg.partEvery [i'] ++
              Spec.dueStates cfg.partEvery is).map groupI) =
              (groups.map (· ++ (Spec.dueStates cfg.partEvery [i']).map groupI)).map
                (· ++ (Spec.dueStates cfg.partEvery is).map groupI) := by
            cases groups <;> simp
          have e4 : rows.map (· ++ (Spec.dueStates (some skip) [i'] ++
              Spec.dueStates (some skip) is).map rowI) =
              (rows.map (· ++ (Spec.dueStates (some skip) [i']).map rowI)).map
                (· ++ (Spec.dueStates (some skip) is).map rowI) := by
            cases rows <;> simp
          rw [e3, e4]
          simpa [phisOf, cellsOf] using hl2
        · rw [lastOf_more]; exact hle
        · intro _
          rw [lastOf_more]
          by_cases hi : is = []
          · rw [hnil hi, hi]
            change (if Spec.isDue cfg.partEvery i'.count then i'.count else last) = i'.count ↔
              Spec.isDue cfg.partEvery i'.count = true
            split
            · rename_i hd; simp [hd]
            · rename_i hd
              simp only [hd]
              constructor
              · intro hcc; omega
              · intro hcc; cases hcc
          · exact hne hi

/-! ### The beginning and the end -/

/-- The state of the program before initialization for the specification state `i` and the right-hand
side `b`: fresh containers, a new file, new histories, nothing written. -/
structure Fresh (sl D C : Nat) (skip : Int) (st : State K V α σ φ) (i : Ideal K V α σ)
    (b : List K) : Prop where
  count : st.count = i.count
  time : st.time = i.time
  side : st.side = i.side
  charge : st.solver.charge.length = D
  b : st.solver.b = b
  sps : List.Forall₂ (RelSp sl D C) st.sps i.pops
  empty : ∀ p ∈ i.pops, p.st = ⟨[], false⟩
  file : st.file = none ∨ ∃ last, st.file = some ⟨last, []⟩ ∧ last < i.count
  hist : st.hist = none ∨ st.hist = some ⟨skip, []⟩
  phiLog : st.phiLog = []
  cellLog : st.cellLog = []

theorem setUp_agree {cfg : Cfg K V α σ φ} {onMesh : α → Bool} {d : Nat → Nat} {sl D C : Nat}
    (hm : GoodMesh cfg onMesh d D C) {skip : Int}
    (init : Option (List (String × List α))) {st : State K V α σ φ} {i : Ideal K V α σ} {b : List K}
    (h : Fresh sl D C skip st i b) :
    Agree (fun i0 st' => Rel cfg sl D C st' i0 ∧ i0.count = i.count ∧
        ∃ last, Logs cfg d C skip st' (st.file.map (fun _ => if init.isSome then [groupI i0] else []))
          last (st.hist.map (fun _ => [rowI i0])) (firstPhis cfg init.isSome b i0) [] ∧
        last ≤ i.count ∧ (st.file.isSome = true → (last = i.count ↔ init.isSome = true)))
      (Spec.Comp.start cfg sl D onMesh init b i) (setUp cfg init st) := by
  -- the first solution
  have hs1 : ∃ st1, writePhi cfg.fieldEvery.isSome (solveField cfg false st) = st1 ∧
      st1 = { st with
        solver := { st.solver with phi := cfg.solve b }
        field := cfg.fieldOf (cfg.solve b)
        phiLog := if cfg.fieldEvery.isSome then [(i.time, cfg.solve b)] else [] } := by
    refine ⟨_, rfl, ?_⟩
    have hsol : Fld.solveForPhi cfg.bc cfg.solve st.solver false cfg.factor =
        { st.solver with phi := cfg.solve b } := by simp [Fld.solveForPhi, h.b]
    simp only [solveField, writePhi, hsol]
    split
    · simp [h.phiLog, h.time]
    · simp [h.phiLog]
  obtain ⟨st1, e1, h1⟩ := hs1
  unfold setUp
  rw [e1]
  -- recording the histories at the end
  have hrec : ∀ (st2 : State K V α σ φ) (pops : List (Pop K V α)) (phi : List K),
      st2.hist = st.hist → st2.count = i.count → st2.time = i.time →
      List.Forall₂ (RelSp sl D C) st2.sps (pops.map Spec.looked) →
      ∃ sps3, (match st2.hist with
        | none => (.ok st2 : Except Err _)
        | some hh => recordHist hh st2) = .ok { st2 with
          hist := (st.hist.map (fun _ => [rowI
            (⟨i.count, i.time, pops.map Spec.looked, i.side, phi⟩ : Ideal K V α σ)])).map
              (fun r => ⟨skip, r⟩)
          sps := sps3 } ∧
        List.Forall₂ (RelSp sl D C) sps3 (pops.map Spec.looked) := by
    intro st2 pops phi hh hcount htime hsps
    rcases h.hist with hst | hst
    · rw [hst] at hh
      refine ⟨st2.sps, ?_, hsps⟩
      obtain ⟨_, _, _, _, _, _, _, hist, _, _⟩ := st2
      simp only at hh
      subst hh
      simp [hst]
    · rw [hst] at hh
      obtain ⟨sps3, e3, hs3⟩ := recordHist_ok (st := st2) hsps ⟨skip, []⟩
      refine ⟨sps3, ?_, hs3⟩
      rw [hh]
      simp only
      rw [e3, hst]
      simp [rowI, Ideal.massed, Function.comp_def, Spec.looked, hcount, htime]
  cases init with
  | none =>
    simp only [Spec.Comp.start, initParticles, bind, Except.bind]
    have hlk := looked_nothing h.empty
    obtain ⟨sps3, e3, hs3⟩ := hrec st1 i.pops (cfg.solve b) (by rw [h1]) (by rw [h1]; exact h.count)
      (by rw [h1]; exact h.time) (by rw [h1, hlk]; exact h.sps)
    rw [hlk] at hs3 e3
    refine ⟨_, e3, ⟨?_, ?_, ?_, ?_, ?_, ?_, hs3⟩, rfl, ?_⟩
    · rw [h1]; exact h.count
    · rw [h1]; exact h.time
    · rw [h1]; exact h.side
    · rw [h1]
    · rw [h1]
    · rw [h1]; exact h.charge
    · rcases h.file with hf | ⟨last, hf, hls⟩
      · refine ⟨i.count - 1, ⟨?_, ?_, ?_, ?_⟩, by omega, by simp [hf]⟩
        · rw [h1, hf]; rfl
        · rfl
        · rw [h1]; rfl
        · rw [h1]
          simp only [h.cellLog]
          exact .nil
      · refine ⟨last, ⟨?_, ?_, ?_, ?_⟩, by omega, fun _ => by simp; omega⟩
        · rw [h1, hf]; rfl
        · rfl
        · rw [h1]; rfl
        · rw [h1]
          simp only [h.cellLog]
          exact .nil
  | some groups =>
    simp only [Spec.Comp.start, initParticles, bind, Except.bind]
    have hpush := pushInitial_agree (sl := sl) (D := D) (C := C) groups h.sps
    have hsp1 : st1.sps = st.sps := by rw [h1]
    rw [hsp1]
    cases hap : Spec.Comp.appendGroups sl groups i.pops with
    | error f =>
      rw [hap] at hpush
      cases f with
      | raises e => simp only [Agree] at hpush ⊢; rw [hpush]
      | offMesh => trivial
      | huge => trivial
    | ok ps =>
      rw [hap] at hpush
      obtain ⟨sps1, e2, hps⟩ := hpush
      rw [e2]
      simp only
      unfold Spec.Comp.settle
      by_cases hon : ps.all (fun p => p.st.items.all onMesh) = true
      swap
      · rw [if_neg hon]; trivial
      rw [if_pos hon]
      have hon' : ∀ p ∈ ps, p.st.items.all onMesh = true := by simpa using hon
      have hw0 : List.Forall₂ (RelSp' sl D C) sps1 ps := hps.imp (fun _ _ k => k.weak)
      -- the particle file
      have hwrite : ∃ sps2,
          finish { st1 with sps := sps1 } = .ok { st1 with
              file := st.file.map (fun _ => ⟨i.count, [(i.count, i.time,
                ps.map (fun p => (p.index, p.st.items)))]⟩)
              sps := sps2 } ∧
          List.Forall₂ (RelSp' sl D C) sps2 ps := by
        have hw1 : st1.file = st.file := by rw [h1]
        rcases h.file with hf | ⟨last, hf, hls⟩
        · refine ⟨sps1, ?_, hw0⟩
          obtain ⟨_, _, _, _, _, _, file, _, _, _⟩ := st1
          simp only at hw1
          subst hw1
          simp [hf, finish]
        · have hcount : ({ st1 with sps := sps1 } : State K V α σ φ).count = i.count := by
            rw [h1]; exact h.count
          have htime : ({ st1 with sps := sps1 } : State K V α σ φ).time = i.time := by
            rw [h1]; exact h.time
          obtain ⟨sps', e, k1⟩ := writeFile_ok
            (st := { st1 with sps := sps1 }) hw0 (f := ⟨last, []⟩) (by simp only [hw1, hf])
            (by rw [hcount]; simp only; omega)
          refine ⟨sps', ?_, k1⟩
          unfold finish
          rw [if_pos (by simp [hw1, hf]), e, hf]
          simp only at hcount htime
          simp [hcount, htime]
      obtain ⟨sps2, e3, hs2⟩ := hwrite
      generalize hw2 : st.file.map (fun _ => (⟨i.count, [(i.count, i.time,
                ps.map (fun p => (p.index, p.st.items)))]⟩ : File K V α)) = w2 at e3
      rw [e3]
      simp only
      have hcl : st1.solver.charge.length = D := by rw [h1]; exact h.charge
      obtain ⟨sps3, log, e4, hs3, hlog⟩ := densities_ok hm (every := none) (by simp)
        (st := { st1 with file := w2, sps := sps2 }) hs2 hcl hon'
      simp only [Spec.isDue, Bool.false_eq_true, if_false] at hlog
      cases hlog
      rw [e4]
      simp only
      have hphi := solve_phi cfg D ps st1.solver
      have e5 : ∃ solver4, writePhi cfg.fieldEvery.isSome (solveField cfg true { st1 with
            sps := sps3
            file := w2
            solver := { st1.solver with charge := (List.range D).map (Spec.chargeAt cfg ps) }
            cellLog := st1.cellLog ++ [] }) = { st1 with
              sps := sps3
              file := w2
              solver := solver4
              field := cfg.fieldOf (Spec.potential cfg D ps)
              phiLog := st1.phiLog ++ (if cfg.fieldEvery.isSome then
                [(st1.time, Spec.potential cfg D ps)] else []) } ∧
            solver4.phi = Spec.potential cfg D ps ∧ solver4.charge.length = D := by
        refine ⟨_, ?_, hphi.1, hphi.2⟩
        simp only [solveField, writePhi, List.append_nil]
        split
        · simp only [hphi.1]
        · simp only [hphi.1, List.append_nil]
      obtain ⟨solver4, e5, hp4, hc4⟩ := e5
      simp only [pure, Except.pure]
      rw [e5]
      obtain ⟨sps6, e6, hs6⟩ := hrec { st1 with
              sps := sps3
              file := w2
              solver := solver4
              field := cfg.fieldOf (Spec.potential cfg D ps)
              phiLog := st1.phiLog ++ (if cfg.fieldEvery.isSome then
                [(st1.time, Spec.potential cfg D ps)] else []) } ps (Spec.potential cfg D ps)
        (by simp only [h1]) (by simp only [h1]; exact h.count) (by simp only [h1]; exact h.time) hs3
      refine ⟨_, e6, ⟨?_, ?_, ?_, rfl, hp4, hc4, hs6⟩, rfl, i.count, ⟨?_, ?_, ?_, ?_⟩, le_refl _, ?_⟩
      · simp only [h1]; exact h.count
      · simp only [h1]; exact h.time
      · simp only [h1]; exact h.side
      · simp only [Option.isSome_some, if_true, ← hw2, h.time]
        cases st.file with
        | none => rfl
        | some f => simp [groupI, Ideal.filed, Function.comp_def, Spec.looked]
      · simp only [h.side]
      · simp only [h1, firstPhis, Option.isSome_some, if_true]
        split <;> simp [h.time]
      · simp only [h1, h.cellLog]
        exact .nil
      · intro hsome
        simp

/-- The end of the program. -/
theorem finish_ok {cfg : Cfg K V α σ φ} {d : Nat → Nat} {sl D C : Nat} {skip : Int}
    {st : State K V α σ φ} {i : Ideal K V α σ} (h : Rel cfg sl D C st i)
    {groups : Option (List (Int × K × List (V × List α)))} {last : Int}
    {rows : Option (List (Int × K × List (K × List α)))} {plog : List (K × List K)}
    {clog : List (K × Pop K V α)} (hl : Logs cfg d C skip st groups last rows plog clog) :
    ∃ sps' last', finish st = .ok { st with
        sps := sps'
        file := groups.map (fun g => ⟨last', g ++ if last = i.count then [] else [groupI i]⟩) } ∧
      List.Forall₂ (RelSp' sl D C) sps' i.pops := by
  have hw : List.Forall₂ (RelSp' sl D C) st.sps i.pops := h.sps.imp (fun _ _ k => k.weak)
  unfold finish
  have hf := hl.file
  cases groups with
  | none =>
    simp only [Option.map_none] at hf
    refine ⟨st.sps, 0, ?_, hw⟩
    rw [if_neg (by simp [hf])]
    obtain ⟨_, _, _, _, _, _, file, _, _, _⟩ := st
    simp only at hf
    subst hf
    rfl
  | some g =>
    simp only [Option.map_some] at hf
    rw [if_pos (by simp [hf])]
    by_cases hls : last = i.count
    · refine ⟨st.sps, last, ?_, hw⟩
      unfold writeFile
      rw [hf]
      simp only [h.count, hls, if_true, Option.map_some, List.append_nil]
      obtain ⟨_, _, _, _, _, _, file, _, _, _⟩ := st
      simp only at hf
      subst hf
      have hct := h.count
      simp only at hct
      simp only [hls, hct]
    · obtain ⟨sps', e, k⟩ := writeFile_ok hw hf (by simp only [h.count]; exact fun hcc => hls hcc.symm)
      refine ⟨sps', st.count, ?_, k⟩
      rw [e]
      simp only [Option.map_some, if_neg hls, groupI, Ideal.filed, h.count, h.time]

end CppLoop
end Dt
