import Verif.Spec.TrajLoop
import Verif.Lemmas.TrajPass
import Verif.Lemmas.TimeLoop
import Verif.Lemmas.SourcesMore
import Verif.Props.Traj

/-! # Trajectory lists and diaries -/

set_option linter.unusedSectionVars false

namespace Dt
namespace TrajLoop
open TrajSp Spec
open SAP (Reachable)
open TimeLoop (Holds)
variable {τ α δ T U : Type} [Add T] [DecidableEq U]

theorem addPt_take (np : Nat) (l : List δ) (d : δ) : addPt np (l.take np) d = (l ++ [d]).take np := by
  unfold addPt
  rw [List.length_take, List.take_append]
  by_cases h : l.length < np
  · rw [if_pos (by omega)]
    congr 1
    rw [List.take_of_length_le]
    simp only [List.length_cons, List.length_nil]
    omega
  · rw [if_neg (by omega), show np - l.length = 0 by omega]
    simp

theorem foldl_addPt_take {β : Type} (np : Nat) (f : β → δ) (evs : List β) (l : List δ) :
    evs.foldl (fun pts ev => addPt np pts (f ev)) (l.take np) = (l ++ evs.map f).take np := by
  induction evs generalizing l with
  | nil => simp
  | cons ev evs ih =>
    rw [List.foldl_cons, addPt_take, ih]
    simp

/-- The arguments of the bookkeeping during a mover call. -/
def tcfg (c : Cfg α δ) (last : Option Int) (m : Motion τ α δ T) : TrajSp.Cfg δ α T :=
  ⟨c.np, last, m.step, m.time, m.dt, c.isTraj, c.isDel, m.mkCross, m.mkFinal⟩

/-- The data arrays hold the diaries, cut off at `np`. -/
def Pts (np : Nat) (owner : List U) (t : TrajSp δ) (log : U → List δ) : Prop :=
  ∀ (j : Nat) (u : U), owner[j]? = some u → points t j = (log u).take np

theorem adv_diary (c : Cfg α δ) (uid : α → U) (last : Option Int) (m : Motion τ α δ T) (k : Nat)
    (hk : Keeps (tcfg c last m) uid (m.core k)) {owner : List U} (hnd : owner.Nodup)
    {p : α} {rest done : List α} {i : Nat} {τ0 : τ} {t : TrajSp δ} {log : U → List δ}
    (hw : WF c.np t) (hdone : done.length ≤ i) (hn : ((done ++ p :: rest).map uid).Nodup)
    (hpo : c.isTraj p = true ↔ uid p ∈ owner)
    (hpl : Places owner t.idx (done.map uid) ((p :: rest).map uid) i)
    (hpts : Pts c.np owner t log) :
    match m.core k τ0 p with
    | .error e => cadv (tcfg c last m) (m.core k) (τ0, t) i done.length (decide (done.length ≠ i)) p
        = .error e
    | .ok (τ1, p', evs) => ∃ t2,
        cadv (tcfg c last m) (m.core k) (τ0, t) i done.length (decide (done.length ≠ i)) p
          = .ok ((τ1, t2), p', !c.isDel p') ∧ WF c.np t2 ∧
        Places owner t2.idx ((if c.isDel p' then done else done ++ [p']).map uid) (rest.map uid)
          (i + 1) ∧
        Pts c.np owner t2
          (fun u => if u = uid p then log u ++ notes c last m p p' evs else log u) := by
  have hn' := hn
  simp only [List.map_append, List.map_cons, List.nodup_append, List.nodup_cons, List.mem_cons,
    forall_eq_or_imp] at hn'
  obtain ⟨hn1, ⟨hn2, hn3⟩, hn4⟩ := hn'
  have hudone : uid p ∉ done.map uid := fun h => (hn4 _ h).1 rfl
  simp only [List.map_cons] at hpl
  cases hcore : m.core k τ0 p with
  | error e =>
    simp only [cadv, adv, hcore, bind, Except.bind]
  | ok r =>
    obtain ⟨τ1, p', evs⟩ := r
    obtain ⟨hu, hf, hev⟩ := hk τ0 p τ1 p' evs hcore
    have hf' : c.isTraj p' = c.isTraj p := hf
    have hev' : ∀ ev ∈ evs, c.isTraj ev.1 = c.isTraj p := hev
    simp only [cadv, adv, hcore, bind, Except.bind, bookDeleted, bookKept]
    -- the crossing points
    have hevs : ∃ t1, evs.foldlM (fun t ev =>
        if (tcfg c last m).isTraj ev.1 then recordDatum (tcfg c last m).np t i
          ((tcfg c last m).mkCross (tcfg c last m).step ev.2 ev.1) else .ok t) t
          = .ok t1 ∧ WF c.np t1 ∧ t1.idx = t.idx ∧
        Pts c.np owner t1 (fun u => if u = uid p then log u ++
          (if c.isTraj p then evs.map (fun ev => m.mkCross m.step ev.2 ev.1) else []) else log u) := by
      by_cases hft : c.isTraj p = true
      · obtain ⟨j, hj, hoj⟩ := place_lookup hpl (by simpa using hdone) hudone hnd (hpo.1 hft)
        obtain ⟨t1, e1, w1, hi1, hp1⟩ := foldlM_events (tcfg c last m) evs hw hj
        refine ⟨t1, e1, w1, hi1, ?_⟩
        intro q u hq
        have hfil : evs.filter (fun ev => (tcfg c last m).isTraj ev.1) = evs := by
          rw [List.filter_eq_self]
          intro ev he
          exact (hev' ev he).trans hft
        rw [hp1 q, hfil, hpts q u hq]
        by_cases hqj : q = j
        · subst hqj
          have : u = uid p := by rw [hoj] at hq; exact (Option.some.inj hq).symm
          simp only [this, if_true, if_pos hft]
          exact foldl_addPt_take c.np (fun ev : α × T => m.mkCross m.step ev.2 ev.1) evs (log (uid p))
        · have hne : u ≠ uid p := by
            intro h
            subst h
            exact hqj (nodup_get hnd hq hoj)
          simp only [if_neg hqj, if_neg hne]
      · refine ⟨t, foldlM_noevents (tcfg c last m) evs t ?_, hw, rfl, ?_⟩
        · intro ev he
          rw [hev ev he]
          change c.isTraj p = false
          simpa using hft
        · intro q u hq
          rw [hpts q u hq]
          simp [hft]
    obtain ⟨t1, e1, w1, hi1, hg1⟩ := hevs
    rw [e1]
    simp only []
    cases hdel : c.isDel p' with
    | true =>
      have hdel' : (tcfg c last m).isDel p' = true := hdel
      rw [if_pos hdel']
      simp only [if_true, Bool.not_true]
      -- deleted
      have hrem : ∃ t2, (if c.isTraj p = true then
            remove c.np last t1 (i : Int) m.step m.time m.dt (fun s ft => m.mkFinal s ft p')
          else .ok t1) = .ok t2 ∧ WF c.np t2 ∧
          Places owner t2.idx (done.map uid) (rest.map uid) (i + 1) ∧
          Pts c.np owner t2
            (fun u => if u = uid p then log u ++ notes c last m p p' evs else log u) := by
        by_cases hft : c.isTraj p = true
        · rw [if_pos hft]
          obtain ⟨j, hj, hoj⟩ := place_lookup hpl (by simpa using hdone) hudone hnd (hpo.1 hft)
          obtain ⟨t2, e2, w2, hi2, hp2⟩ := remove_ok w1 (by rw [hi1]; exact hj) last m.step
            m.time m.dt (fun s ft => m.mkFinal s ft p')
          refine ⟨t2, e2, w2, ?_, ?_⟩
          · unfold Places at hpl ⊢
            rw [hi2, hi1, hpl]
            have hg : place (done.map uid) (rest.map uid) (i + 1) (uid p) = -1 := by
              unfold place
              rw [if_neg hudone, if_neg hn2]
            rw [← hg]
            exact map_set_place hnd hoj (fun v _ hvu => place_dropped hvu)
          · intro q u hq
            rw [hp2 q, hg1 q u hq]
            by_cases hqj : q = j
            · subst hqj
              have : u = uid p := by rw [hoj] at hq; exact (Option.some.inj hq).symm
              simp only [this, if_true, if_pos hft, addPt_take, notes, hdel, finalPoint,
                List.append_assoc]
            · have hne : u ≠ uid p := by
                intro h
                subst h
                exact hqj (nodup_get hnd hq hoj)
              simp only [if_neg hqj, if_neg hne]
        · rw [if_neg hft]
          refine ⟨t1, rfl, w1, ?_, ?_⟩
          · unfold Places at hpl ⊢
            rw [hi1, hpl]
            apply List.map_congr_left
            intro v hv
            symm
            apply place_dropped
            intro hvu
            subst hvu
            exact hft (hpo.2 hv)
          · intro q u hq
            rw [hg1 q u hq]
            simp [notes, hft]
      obtain ⟨t2, e2, w2, hp2, hg2⟩ := hrem
      refine ⟨t2, ?_, w2, hp2, hg2⟩
      have e2' : (if (tcfg c last m).isTraj p = true then
            remove (tcfg c last m).np (tcfg c last m).last t1 (i : Int) (tcfg c last m).step
              (tcfg c last m).time (tcfg c last m).dt (fun s ft => (tcfg c last m).mkFinal s ft p')
          else .ok t1) = .ok t2 := e2
      rw [e2']
      rfl
    | false =>
      have hdel' : ¬ (tcfg c last m).isDel p' = true := by
        change ¬ c.isDel p' = true
        rw [hdel]; simp
      rw [if_neg hdel']
      simp only [Bool.false_eq_true, if_false, Bool.not_false]
      have hud' : uid p' = uid p := hu
      have hnotes : notes c last m p p' evs =
          if c.isTraj p then evs.map (fun ev => m.mkCross m.step ev.2 ev.1) else [] := by
        unfold notes
        rw [hdel]
        simp
      have hupd : ∃ t2, (if (c.isTraj p' && decide (done.length ≠ i)) = true then
            update t1 (i : Int) (done.length : Int) else .ok t1) = .ok t2 ∧ WF c.np t2 ∧
          Places owner t2.idx ((done ++ [p']).map uid) (rest.map uid) (i + 1) ∧
          Pts c.np owner t2
            (fun u => if u = uid p then log u ++ notes c last m p p' evs else log u) := by
        have hplace : place ((done ++ [p']).map uid) (rest.map uid) (i + 1) (uid p) =
            (done.length : Int) := by
          unfold place
          rw [if_pos (by simp [hud']), List.map_append, List.idxOf_append, if_neg hudone]
          simp [hud']
        by_cases hcond : (c.isTraj p' && decide (done.length ≠ i)) = true
        · rw [if_pos hcond]
          rw [Bool.and_eq_true] at hcond
          have hft : c.isTraj p = true := by rw [← hf']; exact hcond.1
          obtain ⟨j, hj, hoj⟩ := place_lookup hpl (by simpa using hdone) hudone hnd (hpo.1 hft)
          obtain ⟨t2, e2, w2, hi2, hp2⟩ := update_ok (o := (done.length : Int)) w1
            (by rw [hi1]; exact hj)
          refine ⟨t2, e2, w2, ?_, ?_⟩
          · unfold Places at hpl ⊢
            rw [hi2, hi1, hpl, ← hplace]
            apply map_set_place hnd hoj
            intro v _ hvu
            rw [List.map_append, List.map_cons, List.map_nil, hud']
            exact place_kept hvu
          · intro q u hq
            rw [hp2 q, hg1 q u hq, hnotes]
        · rw [if_neg hcond]
          refine ⟨t1, rfl, w1, ?_, ?_⟩
          · unfold Places at hpl ⊢
            rw [hi1, hpl]
            apply List.map_congr_left
            intro v hv
            by_cases hvu : v = uid p
            · subst hvu
              have hft := hpo.2 hv
              have hdi : done.length = i := by
                rw [hf', hft] at hcond
                simpa using hcond
              rw [hplace]
              unfold place
              rw [if_neg hudone, if_pos (by simp), hdi]
              simp
            · rw [List.map_append, List.map_cons, List.map_nil, hud']
              exact (place_kept hvu).symm
          · rw [hnotes]
            exact hg1
      obtain ⟨t2, e2, w2, hp2, hg2⟩ := hupd
      refine ⟨t2, ?_, w2, hp2, hg2⟩
      have e2' : (if ((tcfg c last m).isTraj p' && decide (done.length ≠ i)) = true then
            update t1 (i : Int) (done.length : Int) else .ok t1) = .ok t2 := e2
      rw [e2']
      rfl

theorem pass_diary (c : Cfg α δ) (uid : α → U) (last : Option Int) (m : Motion τ α δ T) (k : Nat)
    (hk : Keeps (tcfg c last m) uid (m.core k)) {owner : List U} (hnd : owner.Nodup)
    (rest : List α) :
    ∀ (done : List α) (i : Nat) (τ0 : τ) (t : TrajSp δ) (log : U → List δ), WF c.np t →
    done.length ≤ i → ((done ++ rest).map uid).Nodup →
    (∀ p ∈ rest, c.isTraj p = true ↔ uid p ∈ owner) →
    Places owner t.idx (done.map uid) (rest.map uid) i → Pts c.np owner t log →
    lastFlag (cadv (tcfg c last m) (m.core k)) (τ0, t) i done.length rest =
      lastFlag (diaryAdv c uid last m k) (τ0, log) i done.length rest ∧
    match pass (diaryAdv c uid last m k) (τ0, log) i done.length rest with
    | .error e => pass (cadv (tcfg c last m) (m.core k)) (τ0, t) i done.length rest = .error e
    | .ok ((τ', log'), zs) => ∃ t',
        pass (cadv (tcfg c last m) (m.core k)) (τ0, t) i done.length rest = .ok ((τ', t'), zs) ∧
        WF c.np t' ∧ Places owner t'.idx ((done ++ zs).map uid) [] (i + rest.length) ∧
        ((done ++ zs).map uid).Nodup ∧ (∀ p ∈ zs, c.isTraj p = true ↔ uid p ∈ owner) ∧
        Pts c.np owner t' log' := by
  induction rest with
  | nil =>
    intro done i τ0 t log hw hdone hn hfl hpl hpts
    refine ⟨rfl, ?_⟩
    simp only [pass]
    exact ⟨t, rfl, hw, by simpa using hpl, by simpa using hn, by simp, hpts⟩
  | cons p rest ih =>
    intro done i τ0 t log hw hdone hn hfl hpl hpts
    have hone := adv_diary c uid last m k hk hnd (τ0 := τ0) hw hdone hn (hfl p (by simp)) hpl hpts
    simp only [pass, lastFlag]
    cases hcore : m.core k τ0 p with
    | error e =>
      rw [hcore] at hone
      simp only [] at hone
      have hd : diaryAdv c uid last m k (τ0, log) i done.length (decide (done.length ≠ i)) p
          = .error e := by simp only [diaryAdv, hcore]
      rw [hone, hd]
      exact ⟨rfl, rfl⟩
    | ok r =>
      obtain ⟨τ1, p', evs⟩ := r
      rw [hcore] at hone
      simp only [] at hone
      obtain ⟨t2, e2, w2, hp2, hg2⟩ := hone
      obtain ⟨hu, hf, -⟩ := hk τ0 p τ1 p' evs hcore
      have hf' : c.isTraj p' = c.isTraj p := hf
      have hd : diaryAdv c uid last m k (τ0, log) i done.length (decide (done.length ≠ i)) p
          = .ok ((τ1, fun u => if u = uid p then log u ++ notes c last m p p' evs else log u), p',
            !c.isDel p') := by simp only [diaryAdv, hcore]
      rw [e2, hd]
      have hn' := hn
      simp only [List.map_append, List.map_cons, List.nodup_append, List.nodup_cons, List.mem_cons,
        forall_eq_or_imp] at hn'
      obtain ⟨hn1, ⟨hn2, hn3⟩, hn4⟩ := hn'
      cases hdel : c.isDel p' with
      | true =>
        rw [hdel] at hp2
        simp only [if_true] at hp2
        simp only [Bool.not_true]
        obtain ⟨hl, hih⟩ := ih done (i + 1) τ1 t2 _ w2 (by omega) (by
            simp only [List.map_append, List.nodup_append]
            exact ⟨hn1, hn3, fun a ha b hb => (hn4 a ha).2 b hb⟩)
          (fun q hq => hfl q (by simp [hq])) hp2 hg2
        refine ⟨?_, ?_⟩
        · simp only [Bool.false_eq_true, if_false]
          rw [hl]
        · cases hps : pass (diaryAdv c uid last m k)
              (τ1, fun u => if u = uid p then log u ++ notes c last m p p' evs else log u)
              (i + 1) done.length rest with
          | error e => rw [hps] at hih; exact hih
          | ok r =>
            rw [hps] at hih
            obtain ⟨t', e', w', hpl', hn', hfl', hg'⟩ := hih
            refine ⟨t', e', w', ?_, hn', hfl', hg'⟩
            rw [List.length_cons, show i + (rest.length + 1) = i + 1 + rest.length by omega]
            exact hpl'
      | false =>
        rw [hdel] at hp2
        simp only [Bool.false_eq_true, if_false] at hp2
        simp only [Bool.not_false]
        have hlen : (done ++ [p']).length = done.length + 1 := by simp
        obtain ⟨hl, hih⟩ := ih (done ++ [p']) (i + 1) τ1 t2 _ w2 (by rw [hlen]; omega) (by
            simp only [List.map_append, List.map_cons, List.map_nil, List.append_assoc,
              List.cons_append, List.nil_append, hu]
            simpa using hn)
          (fun q hq => hfl q (by simp [hq])) hp2 hg2
        rw [hlen] at hl hih
        refine ⟨?_, ?_⟩
        · simp only [if_true]
          rw [hl]
        · cases hps : pass (diaryAdv c uid last m k)
              (τ1, fun u => if u = uid p then log u ++ notes c last m p p' evs else log u)
              (i + 1) (done.length + 1) rest with
          | error e =>
            rw [hps] at hih
            simp only [] at hih ⊢
            rw [hih]
          | ok r =>
            obtain ⟨⟨τ2, log2⟩, zs⟩ := r
            rw [hps] at hih
            simp only [] at hih ⊢
            obtain ⟨t', e', w', hpl', hn', hfl', hg'⟩ := hih
            rw [e']
            refine ⟨t', rfl, w', ?_, by simpa using hn', ?_, hg'⟩
            · rw [List.length_cons, show i + (rest.length + 1) = i + 1 + rest.length by omega]
              simpa using hpl'
            · intro q hq
              rcases List.mem_cons.1 hq with rfl | hq
              · rw [hf', hu]; exact hfl p (by simp)
              · exact hfl' q hq

/-! ### Species -/

/-- The specification gives a result: so does the code, and they are related.  It raises: so does the
code.  Otherwise it says nothing. -/
def Agree {A B : Type} (P : A → B → Prop) : Except TFault A → Except Err B → Prop
  | .ok a, r => ∃ b, r = .ok b ∧ P a b
  | .error (.raises e), r => r = .error e
  | .error _, _ => True

/-- A species of the program and of the specification. -/
structure RelD (c : Cfg α δ) (uid : α → U) (sl : Nat) (sp : Sp α δ) (d : Diary U α δ) : Prop where
  charged : sp.charged = d.charged
  wf : WF c.np sp.tr
  nodup : d.owner.Nodup
  tracked : Tracked c.isTraj uid d.owner sp.tr d.st.items
  pts : Pts c.np d.owner sp.tr d.log
  stored : d.lost = false → Holds sl sp.sap d.st
  gone : d.lost = true → d.st.items = [] ∧ sp.sap.getNumberOfItems = 0

theorem move_agree (c : Cfg α δ) (uid : α → U) (sl : Nat) (last : Option Int) (m : Motion τ α δ T)
    (k : Nat) (hk : Keeps (tcfg c last m) uid (m.core k)) {sp : Sp α δ} {d : Diary U α δ}
    (h : RelD c uid sl sp d) (side : τ) :
    Agree (fun a b => RelD c uid sl { sp with sap := b.1, tr := b.2.2 } a.1 ∧ b.2.1 = a.2)
      (d.move c uid sl last m k side)
      (Mover.meshStep (cadv (tcfg c last m) (m.core k)) sp.sap (side, sp.tr)) := by
  unfold Diary.move
  by_cases h0 : d.st.items = []
  · rw [if_pos h0]
    refine ⟨(sp.sap, (side, sp.tr)), ?_, ⟨h.charged, h.wf, h.nodup, h.tracked, h.pts, h.stored,
      h.gone⟩, rfl⟩
    have hcount : sp.sap.getNumberOfItems = 0 := by
      cases hl : d.lost with
      | true => exact (h.gone hl).2
      | false =>
        have := SAP.contents_length (h.stored hl).sim.inv
        rw [(h.stored hl).sim.items, h0] at this
        simpa using this.symm
    unfold Mover.meshStep
    rw [if_pos hcount]
  · rw [if_neg h0]
    have hl : d.lost = false := by
      cases hl : d.lost with
      | true => exact absurd (h.gone hl).1 h0
      | false => rfl
    have hh := h.stored hl
    have hcount := SAP.contents_length hh.sim.inv
    rw [hh.sim.items] at hcount
    have hne : sp.sap.getNumberOfItems ≠ 0 := by
      rw [← hcount]
      intro hc
      exact h0 (List.length_eq_zero_iff.1 (by exact_mod_cast hc))
    have hms : Mover.meshStep (cadv (tcfg c last m) (m.core k)) sp.sap (side, sp.tr)
        = Mover.meshPass (cadv (tcfg c last m) (m.core k)) sp.sap (side, sp.tr) := by
      unfold Mover.meshStep; rw [if_neg hne]
    have hcne : sp.sap.contents ≠ [] := by rw [hh.sim.items]; exact h0
    have key := Mover.meshPass_post (cadv (tcfg c last m) (m.core k)) hh.sim.inv hcne (side, sp.tr)
    rw [hh.sim.items] at key
    rw [hms]
    obtain ⟨hlf, hp⟩ := pass_diary c uid last m k hk h.nodup d.st.items [] 0 side sp.tr d.log h.wf
      (Nat.le_refl _) (by simpa using h.tracked.ids) h.tracked.flags
      (places_zero.2 h.tracked.follows) h.pts
    simp only [List.length_nil, List.nil_append] at hlf hp
    cases hq : pass (diaryAdv c uid last m k) (side, d.log) 0 0 d.st.items with
    | error e =>
      rw [hq] at hp
      simp only [] at hp
      rw [hp] at key
      exact key
    | ok r =>
      obtain ⟨⟨side', log'⟩, ys⟩ := r
      rw [hq] at hp
      simp only [] at hp
      obtain ⟨t', e', w', hpl', hn', hfl', hg'⟩ := hp
      rw [e'] at key
      simp only [] at key
      obtain ⟨s', e, post⟩ := key
      refine ⟨(s', (side', t')), e, ⟨h.charged, w', h.nodup, ⟨hn', hfl', places_done.1 hpl'⟩, hg',
        ?_, ?_⟩, rfl⟩
      · intro hys
        have hys' : ys ≠ [] := by
          rintro rfl
          cases hys
        obtain ⟨hti, htc⟩ := post.inv hys'
        refine ⟨?_, ⟨hti, htc, ?_, ?_⟩, by rw [post.sl, hh.sl]⟩
        · refine Mover.meshPass_reach hh.reach hcne e ?_
          rw [post.count]
          intro hc
          exact hys' (List.length_eq_zero_iff.1 (by exact_mod_cast hc))
        · have hs := post.sync hys'
          rw [hh.sl, hlf] at hs
          simp only
          apply decide_eq_decide.2
          unfold SAP.Synced at hs
          constructor
          · intro hd hc
            exact (hs.1 hc) hd
          · intro hd
            by_contra hn
            exact hd (hs.2 hn)
        · refine TimeLoop.tidy_of_full hti ?_
          rw [htc, post.sl]
          exact post.full hys'
      · intro hys
        have hys' : ys = [] := by simpa using hys
        subst hys'
        exact ⟨rfl, by simpa using post.count⟩

theorem advance_agree (c : Cfg α δ) (uid : α → U) (sl : Nat) (last : Option Int) (charged : Bool)
    (m : Motion τ α δ T) (hk : ∀ k, Keeps (tcfg c last m) uid (m.core k)) {sps : List (Sp α δ)}
    {ds : List (Diary U α δ)} (h : List.Forall₂ (RelD c uid sl) sps ds) (k : Nat) (side : τ) :
    Agree (fun a b => List.Forall₂ (RelD c uid sl) b.1 a.1 ∧ b.2 = a.2)
      (moveDiaries c uid sl last charged m k ds side)
      (advanceAll c last charged m k sps side) := by
  induction h generalizing k side with
  | nil => exact ⟨([], side), rfl, .nil, rfl⟩
  | @cons sp d sps ds h hs ih =>
    simp only [moveDiaries, advanceAll]
    by_cases hc : d.charged = charged
    · rw [if_pos hc, if_pos (by rw [h.charged]; exact hc)]
      have key := move_agree c uid sl last m k (hk k) h side
      change Agree _ _ (do
        let x ← Mover.meshStep (cadv (tcfg c last m) (m.core k)) sp.sap (side, sp.tr)
        let y ← advanceAll c last charged m (k + 1) sps x.2.1
        return ({ sp with sap := x.1, tr := x.2.2 } :: y.1, y.2))
      cases hm : d.move c uid sl last m k side with
      | error f =>
        rw [hm] at key
        cases f with
        | raises e =>
          simp only [Agree] at key ⊢
          rw [key]
          rfl
        | _ => trivial
      | ok r =>
        obtain ⟨d', side'⟩ := r
        rw [hm] at key
        obtain ⟨⟨s', st', t'⟩, e, hr, hst⟩ := key
        simp only at hst
        subst hst
        rw [e]
        simp only [bind, Except.bind, pure, Except.pure]
        have := ih (k + 1) st'
        cases hd : moveDiaries c uid sl last charged m (k + 1) ds st' with
        | error f =>
          rw [hd] at this
          cases f with
          | raises e =>
            simp only [Agree] at this ⊢
            rw [this]
          | _ => trivial
        | ok r =>
          rw [hd] at this
          obtain ⟨b, e2, h2, h3⟩ := this
          rw [e2]
          exact ⟨_, rfl, .cons hr h2, h3⟩
    · rw [if_neg hc, if_neg (by rw [h.charged]; exact hc)]
      have := ih (k + 1) side
      simp only [bind, Except.bind, pure, Except.pure]
      cases hd : moveDiaries c uid sl last charged m (k + 1) ds side with
      | error f =>
        rw [hd] at this
        cases f with
        | raises e =>
          simp only [Agree] at this ⊢
          rw [this]
        | _ => trivial
      | ok r =>
        rw [hd] at this
        obtain ⟨b, e2, h2, h3⟩ := this
        rw [e2]
        exact ⟨_, rfl, .cons h h2, h3⟩

/-! ### Scheduled points -/

omit [Add T] in
theorem filter_uid (isTraj : α → Bool) (uid : α → U) {xs : List α} (hn : (xs.map uid).Nodup)
    (u : U) (i : Nat) (hi : i < xs.length) (hu : uid xs[i] = u) (ht : isTraj xs[i] = true) :
    xs.filter (fun p => isTraj p ∧ uid p = u) = [xs[i]] := by
  induction xs generalizing i with
  | nil => simp at hi
  | cons x xs ih =>
    simp only [List.map_cons, List.nodup_cons] at hn
    cases i with
    | zero =>
      simp only [List.getElem_cons_zero] at hu ht ⊢
      rw [List.filter_cons_of_pos (by simp [ht, hu])]
      congr 1
      rw [List.filter_eq_nil_iff]
      intro y hy
      simp only [decide_eq_true_eq, not_and]
      intro _ hc
      rw [← hu] at hc
      exact hn.1 (hc ▸ List.mem_map_of_mem hy)
    | succ i =>
      simp only [List.getElem_cons_succ] at hu ht ⊢
      have hi' : i < xs.length := by simpa using hi
      rw [List.filter_cons_of_neg, ih hn.2 i hi' hu ht]
      simp only [decide_eq_true_eq, not_and]
      intro _ hc
      rw [← hu] at hc
      exact hn.1 (hc ▸ List.mem_map_of_mem (List.getElem_mem hi'))

omit [Add T] in
theorem filter_uid_none (isTraj : α → Bool) (uid : α → U) {xs : List α} (u : U)
    (hu : u ∉ xs.map uid) : xs.filter (fun p => isTraj p ∧ uid p = u) = [] := by
  rw [List.filter_eq_nil_iff]
  intro y hy
  simp only [decide_eq_true_eq, not_and]
  rintro _ rfl
  exact hu (List.mem_map_of_mem hy)

/-- What the index list says about a trajectory. -/
theorem live {c : Cfg α δ} {uid : α → U} {sl : Nat} {sp : Sp α δ} {d : Diary U α δ}
    (h : RelD c uid sl sp d) {j : Nat} {ip : Int} (hj : sp.tr.idx[j]? = some ip) :
    ∃ u, d.owner[j]? = some u ∧
      ((ip = -1 ∧ u ∉ d.st.items.map uid) ∨ (ip ≠ -1 ∧ ∃ (i : Nat) (hi : i < d.st.items.length),
        ip = i ∧ uid d.st.items[i] = u ∧ c.isTraj d.st.items[i] = true ∧
        sp.sap.getItem ip = .ok d.st.items[i])) := by
  have hf := h.tracked.follows
  unfold Follows at hf
  rw [hf, List.getElem?_map] at hj
  cases ho : d.owner[j]? with
  | none => rw [ho] at hj; cases hj
  | some u =>
    rw [ho] at hj
    simp only [Option.map_some, Option.some.injEq] at hj
    refine ⟨u, rfl, ?_⟩
    unfold posOf at hj
    by_cases hm : u ∈ d.st.items.map uid
    · rw [if_pos hm] at hj
      right
      have hlt := List.idxOf_lt_length_of_mem hm
      have hi : (d.st.items.map uid).idxOf u < d.st.items.length := by simpa using hlt
      have hu : uid d.st.items[(d.st.items.map uid).idxOf u] = u := by
        have h1 : (d.st.items.map uid)[(d.st.items.map uid).idxOf u] = u := List.getElem_idxOf hlt
        rw [List.getElem_map] at h1
        exact h1
      refine ⟨by omega, _, hi, hj.symm, hu, ?_, ?_⟩
      · rw [h.tracked.flags _ (List.getElem_mem hi), hu]
        exact List.mem_of_getElem? ho
      · have hl : d.lost = false := by
          cases hl : d.lost with
          | true =>
            rw [(h.gone hl).1] at hm
            cases hm
          | false => rfl
        have := (h.stored hl).stores.2 _ hi
        rw [← hj]
        exact this
    · rw [if_neg hm] at hj
      exact .inl ⟨hj.symm, hm⟩

theorem note_rel {c : Cfg α δ} {uid : α → U} {sl : Nat} {sp : Sp α δ} {d : Diary U α δ}
    (h : RelD c uid sl sp d) (hroom : d.room c uid = true) (mk : α → δ) :
    (∃ t', Traj.chargedLoop c.np sp.sap mk sp.tr.idx.length 0 sp.tr = .ok (t', false) ∧
      Traj.neutralLoop sp.sap mk sp.tr.idx.length 0 sp.tr = .ok t' ∧
      RelD c uid sl { sp with tr := t' }
        { d with log := fun u => d.log u ++
          (d.st.items.filter (fun p => c.isTraj p ∧ uid p = u)).map mk }) := by
  have hr : ∀ (j : Nat) (ip : Int), 0 ≤ j → sp.tr.idx[j]? = some ip → ip ≠ -1 →
      (points sp.tr j).length < c.np ∧ ∃ p, sp.sap.getItem ip = .ok p := by
    intro j ip _ hj hip
    obtain ⟨u, ho, hc⟩ := live h hj
    rcases hc with ⟨hc, _⟩ | ⟨_, i, hi, _, hu, ht, hg⟩
    · exact absurd hc hip
    · refine ⟨?_, _, hg⟩
      unfold Diary.room at hroom
      rw [List.all_eq_true] at hroom
      have := hroom _ (List.getElem_mem hi)
      rw [ht, hu] at this
      rw [h.pts j u ho, List.length_take]
      have : (d.log u).length < c.np := by simpa using this
      omega
  obtain ⟨t', e, w', hidx, hp⟩ := Traj.chargedLoop_ok (mk := mk) sp.tr.idx.length (i := 0) h.wf
    (by simp) hr
  obtain ⟨t2, e2, e3⟩ := Traj.neutralLoop_ok (mk := mk) sp.tr.idx.length (i := 0) h.wf
    (by simp) hr
  rw [e] at e3
  simp only [Except.ok.injEq, Prod.mk.injEq, and_true] at e3
  subst e3
  refine ⟨t', e, e2, h.charged, w', h.nodup, ⟨h.tracked.ids, h.tracked.flags, ?_⟩, ?_, h.stored,
    h.gone⟩
  · unfold Follows
    simp only
    rw [hidx]
    exact h.tracked.follows
  · intro j u ho
    have hlen : sp.tr.idx.length = d.owner.length := by
      have := h.tracked.follows
      unfold Follows at this
      rw [this, List.length_map]
    have hj : j < sp.tr.idx.length := by
      rw [hlen]
      rw [List.getElem?_eq_some_iff] at ho
      exact ho.1
    have hjs := List.getElem?_eq_getElem hj
    obtain ⟨u', ho', hc⟩ := live h hjs
    rw [ho, Option.some.injEq] at ho'
    subst ho'
    have hpj := hp j
    rw [hjs] at hpj
    simp only [Nat.zero_le, true_and] at hpj
    simp only
    rcases hc with ⟨hc, hu⟩ | ⟨hc, i, hi, _, hu, ht, hg⟩
    · rw [if_neg (by simp [hc])] at hpj
      rw [hpj, h.pts j u ho, filter_uid_none c.isTraj uid u hu]
      simp
    · rw [if_pos hc, hg] at hpj
      simp only at hpj
      rw [hpj, filter_uid c.isTraj uid h.tracked.ids u i hi hu ht, h.pts j u ho]
      have hlt := (hr j _ (Nat.zero_le _) hjs hc).1
      rw [h.pts j u ho] at hlt
      rw [List.map_cons, List.map_nil, ← addPt_take]
      unfold addPt
      rw [if_pos hlt]

theorem recordCharged_ok {c : Cfg α δ} {uid : α → U} {sl : Nat} {sps : List (Sp α δ)}
    {ds : List (Diary U α δ)} (h : List.Forall₂ (RelD c uid sl) sps ds)
    (hroom : ds.all (Diary.room c uid) = true) (mkC mkN : α → δ) :
    ∃ sps', recordCharged c.np mkC sps = .ok (sps', false) ∧
      List.Forall₂ (fun sp d => RelD c uid sl sp (if d.charged then d.note c uid mkC mkN else d))
        sps' ds := by
  induction h with
  | nil => exact ⟨[], rfl, .nil⟩
  | @cons sp d sps ds h hs ih =>
    simp only [List.all_cons, Bool.and_eq_true] at hroom
    obtain ⟨sps', e, hr⟩ := ih hroom.2
    simp only [recordCharged]
    cases hc : d.charged with
    | true =>
      have hch : sp.charged = true := by rw [h.charged]; exact hc
      obtain ⟨t', e1, -, hn⟩ := note_rel h hroom.1 mkC
      refine ⟨{ sp with tr := t' } :: sps', ?_, .cons ?_ hr⟩
      · rw [if_pos hch]
        simp only [bind, Except.bind, e1, e, pure, Except.pure, Bool.false_eq_true, if_false]
      · rw [hc, if_pos rfl]
        unfold Diary.note
        rw [hc, if_pos rfl]
        simpa [hc] using hn
    | false =>
      have hch : sp.charged = false := by rw [h.charged]; exact hc
      refine ⟨sp :: sps', ?_, .cons ?_ hr⟩
      · rw [hch]
        simp only [Bool.false_eq_true, if_false, bind, Except.bind, e, pure, Except.pure]
      · rw [hc]
        simpa using h

theorem recordNeutral_ok {c : Cfg α δ} {uid : α → U} {sl : Nat} {sps : List (Sp α δ)}
    {ds : List (Diary U α δ)} (mkC mkN : α → δ)
    (h : List.Forall₂ (fun sp d => RelD c uid sl sp (if d.charged then d.note c uid mkC mkN else d))
        sps ds)
    (hroom : ds.all (Diary.room c uid) = true) :
    ∃ sps', recordNeutral mkN sps = .ok sps' ∧
      List.Forall₂ (RelD c uid sl) sps' (ds.map (Diary.note c uid mkC mkN)) := by
  induction h with
  | nil => exact ⟨[], rfl, .nil⟩
  | @cons sp d sps ds h hs ih =>
    simp only [List.all_cons, Bool.and_eq_true] at hroom
    obtain ⟨sps', e, hr⟩ := ih hroom.2
    simp only [recordNeutral]
    cases hc : d.charged with
    | true =>
      rw [hc, if_pos rfl] at h
      have hch : sp.charged = true := by rw [h.charged]; exact hc
      refine ⟨sp :: sps', ?_, .cons h hr⟩
      rw [hch]
      simp only [if_true, bind, Except.bind, e, pure, Except.pure]
    | false =>
      rw [hc] at h
      simp only [Bool.false_eq_true, if_false] at h
      have hch : sp.charged = false := by rw [h.charged]; exact hc
      obtain ⟨t', -, e1, hn⟩ := note_rel h hroom.1 mkN
      refine ⟨{ sp with tr := t' } :: sps', ?_, .cons ?_ hr⟩
      · rw [hch]
        simp only [Bool.false_eq_true, if_false, bind, Except.bind, e1, e, pure, Except.pure]
      · unfold Diary.note
        rw [hc]
        simp only [Bool.false_eq_true, if_false]
        simpa [hc] using hn

/-! ### Creation -/

omit [Add T] [DecidableEq U] in
theorem indexOf_new {xs : List Int} {v : Int} (h : v ∉ xs) :
    indexOf (xs ++ [v]) v = .ok xs.length := by
  obtain ⟨j, hj⟩ := indexOf_mem (xs := xs ++ [v]) (v := v) (by simp)
  obtain ⟨k1, k2, -⟩ := indexOf_ok hj
  rw [hj]
  congr 1
  simp only [List.length_append, List.length_singleton] at k2
  by_contra hne
  have hlt : j < xs.length := by omega
  rw [List.getElem?_append_left hlt] at k1
  exact h (List.mem_of_getElem? k1)

omit [Add T] [DecidableEq U] in
theorem points_beyond {np : Nat} {t : TrajSp δ} (h : WF np t) {j : Nat} (hj : t.idx.length ≤ j) :
    points t j = [] := by
  unfold points
  rw [List.getElem?_eq_none (by rw [h.data]; exact hj)]

theorem push_holds {sl : Nat} {s : SAP α} {st : LState α} (h : Holds sl s st) (x : α) :
    if st.stale = true ∧ st.items ≠ [] ∧ st.items.length % sl = 0 then
      s.pushBack x = .error .assertion
    else ∃ s' off, s.pushBack x = .ok (s', (off, (st.items.length : Int))) ∧
      Holds sl s' ⟨st.items ++ [x], st.stale⟩ ∧
      (st.stale = false → s'.viewGet s'.getCurrentOutSegment off = .ok x) := by
  have key := SAP.sim_step h.sim (.push x)
  simp only [LState.step, h.sl] at key
  by_cases hc : st.stale = true ∧ st.items ≠ [] ∧ st.items.length % sl = 0
  · rw [if_pos hc] at key ⊢
    simp only [SAP.call, bind, Except.bind, pure, Except.pure] at key
    cases hp : s.pushBack x with
    | error e => rw [hp] at key; simpa using key
    | ok r => rw [hp] at key; simp at key
  · rw [if_neg hc] at key ⊢
    obtain ⟨s', e, hs, hsl⟩ := key
    simp only [SAP.call, bind, Except.bind, pure, Except.pure] at e
    cases hp : s.pushBack x with
    | error _ => rw [hp] at e; simp at e
    | ok r =>
      obtain ⟨s1, off, full⟩ := r
      rw [hp] at e
      simp only [Except.ok.injEq, Prod.mk.injEq] at e
      obtain ⟨rfl, _⟩ := e
      have hfull : full = st.items.length := by
        have h1 := (C02_push_index_stable h.reach hp).1
        have h2 := SAP.contents_length h.sim.inv
        rw [h.sim.items] at h2
        omega
      subst hfull
      refine ⟨s1, off, rfl, ⟨.push h.reach hp, hs, hsl⟩, ?_⟩
      intro hst
      have hsy : s.Synced := by
        have := h.sim.stale
        rw [hst] at this
        have := (decide_eq_false_iff_not.1 this.symm)
        unfold SAP.Synced
        exact not_not.1 this
      obtain ⟨s2, e2, _, _, _, hv, _⟩ := SAP.viewGet_pushed h.sim.inv hsy x
      rw [hp] at e2
      simp only [Except.ok.injEq, Prod.mk.injEq] at e2
      obtain ⟨rfl, rfl, _⟩ := e2
      exact hv

theorem create_agree {c : Cfg α δ} {uid : α → U} {sl : Nat} {sp : Sp α δ} {d : Diary U α δ}
    (h : RelD c uid sl sp d) (p : α) (first : Option (α → α → δ)) :
    Agree (fun d' sp' => RelD c uid sl sp' d') (d.create c uid sl p first)
      (createOne c p first sp) := by
  unfold Diary.create
  cases hl : d.lost with
  | true => trivial
  | false =>
    simp only [Bool.false_eq_true, if_false]
    have hh := h.stored hl
    have key := push_holds hh p
    by_cases hc : d.st.stale = true ∧ d.st.items ≠ [] ∧ d.st.items.length % sl = 0
    · rw [if_pos hc] at key ⊢
      unfold createOne
      simp only [Agree, key, bind, Except.bind]
    · rw [if_neg hc] at key ⊢
      by_cases hid : uid p ∈ d.st.items.map uid ∨ uid p ∈ d.owner
      · rw [if_pos hid]
        trivial
      · rw [if_neg hid]
        have hid1 : uid p ∉ d.st.items.map uid := fun hx => hid (.inl hx)
        have hid2 : uid p ∉ d.owner := fun hx => hid (.inr hx)
        by_cases hs : c.isTraj p = true ∧ first.isSome = true ∧ d.st.stale = true
        · rw [if_pos hs]
          trivial
        · rw [if_neg hs]
          obtain ⟨s', off, e, hh', hv⟩ := key
          have hx : ((d.st.items.length : Nat) : Int) = sp.sap.getNumberOfItems := by
            have h2 := SAP.contents_length hh.sim.inv
            rw [hh.sim.items] at h2
            exact h2
          have htr := C17_create_follows c.np c.junk c.isTraj uid hh.reach d.st.items hx e h.tracked
            hid1 hid2
          have hidx : sp.tr.idx.length = d.owner.length := by
            have := h.tracked.follows
            unfold Follows at this
            rw [this, List.length_map]
          have hget : s'.getItem (d.st.items.length : Int) = .ok p := by
            have := hh'.stores.2 d.st.items.length (by simp)
            rw [this]
            simp
          have hnew : (d.st.items.length : Int) ∉ sp.tr.idx := by
            intro hm
            obtain ⟨j, hj⟩ := List.getElem?_of_mem hm
            obtain ⟨u, -, hc'⟩ := live h hj
            rcases hc' with ⟨h1, -⟩ | ⟨-, i, hi, h1, -⟩ <;> omega
          unfold createOne
          simp only [e, bind, Except.bind, startTrajectory]
          by_cases ht : c.isTraj p = true
          · -- a new trajectory
            simp only [if_pos ht] at htr
            have hcw := create_wf h.wf c.junk (d.st.items.length : Int)
            have hnd : (d.owner ++ [uid p]).Nodup := by
              rw [List.nodup_append]
              refine ⟨h.nodup, by simp, ?_⟩
              intro a ha b hb hab
              simp only [List.mem_singleton] at hb
              subst hab; subst hb
              exact hid2 ha
            have hold : ∀ (j : Nat) (u : U), d.owner[j]? = some u → u ≠ uid p := by
              intro j u hj hu
              subst hu
              exact hid2 (List.mem_of_getElem? hj)
            cases first with
            | none =>
              simp only [hget, if_pos ht, pure, Except.pure]
              refine ⟨_, rfl, h.charged, hcw.1, hnd, htr, ?_, fun _ => hh', ?_⟩
              · intro j u hj
                simp only
                rw [hcw.2 j]
                rw [List.getElem?_append] at hj
                split at hj
                · rw [if_neg (hold j u hj)]
                  exact h.pts j u hj
                · rw [List.getElem?_singleton] at hj
                  split at hj
                  · simp only [Option.some.injEq] at hj
                    rw [points_beyond h.wf (by omega), if_pos hj.symm]
                    simp
                  · cases hj
              · intro hl'; cases hl'
            | some pt =>
              have hst : d.st.stale = false := by
                cases hst : d.st.stale with
                | false => rfl
                | true => exact absurd ⟨ht, rfl, hst⟩ hs
              obtain ⟨t', e', w', hi', hp'⟩ := recordDatum_ok hcw.1 (j := sp.tr.idx.length)
                (full := (d.st.items.length : Int)) (indexOf_new hnew) (pt p p)
              simp only [if_pos ht, hv hst, e', pure, Except.pure]
              refine ⟨_, rfl, h.charged, w', hnd, ⟨htr.ids, htr.flags, ?_⟩, ?_, fun _ => hh', ?_⟩
              · have := htr.follows
                unfold Follows at this ⊢
                simp only
                rw [hi']
                exact this
              · intro j u hj
                simp only
                rw [hp' j, hcw.2 j]
                rw [List.getElem?_append] at hj
                split at hj
                · rw [if_neg (hold j u hj), if_neg (by omega)]
                  exact h.pts j u hj
                · rw [List.getElem?_singleton] at hj
                  split at hj
                  · simp only [Option.some.injEq] at hj
                    rw [points_beyond h.wf (by omega), if_pos hj.symm, if_pos (by omega)]
                    have := addPt_take c.np [] (pt p p)
                    rw [List.take_nil, List.nil_append] at this
                    exact this
                  · cases hj
              · intro hl'; cases hl'
          · -- no trajectory
            simp only [if_neg ht] at htr
            have hrel : RelD c uid sl { sp with sap := s' } { d with
                st := ⟨d.st.items ++ [p], d.st.stale⟩
                owner := if c.isTraj p then d.owner ++ [uid p] else d.owner
                lost := false
                log := fun u => if u = uid p then
                    (if c.isTraj p then (match first with | none => [] | some pt => [pt p p]) else [])
                  else d.log u } := by
              refine ⟨h.charged, h.wf, by simp only [if_neg ht]; exact h.nodup,
                by simp only [if_neg ht]; exact htr, ?_, fun _ => hh', ?_⟩
              · intro j u hj
                simp only [if_neg ht] at hj ⊢
                rw [if_neg (by rintro rfl; exact hid2 (List.mem_of_getElem? hj))]
                exact h.pts j u hj
              · intro hl'; cases hl'
            cases first with
            | none =>
              simp only [hget, if_neg ht, pure, Except.pure]
              exact ⟨_, rfl, by simpa only [if_neg ht] using hrel⟩
            | some pt =>
              simp only [if_neg ht]
              exact ⟨_, rfl, by simpa only [if_neg ht] using hrel⟩

theorem look_agree {c : Cfg α δ} {uid : α → U} {sl : Nat} {sp : Sp α δ} {d : Diary U α δ}
    (h : RelD c uid sl sp d) :
    Agree (fun d' sp' => RelD c uid sl sp' d') d.look (lookOne sp) := by
  unfold Diary.look
  cases hl : d.lost with
  | true => trivial
  | false =>
    simp only [Bool.false_eq_true, if_false]
    have hh := h.stored hl
    unfold lookOne
    simp only [SAP.readLoop_ok hh.sim.inv.out, bind, Except.bind, pure, Except.pure]
    refine ⟨_, rfl, h.charged, h.wf, h.nodup, h.tracked, h.pts, fun _ => ?_, ?_⟩
    · have := hh.atEnd
      unfold TimeLoop.endOf at this
      exact this
    · intro hl'; cases hl'

theorem onSpecies_agree {c : Cfg α δ} {uid : α → U} {sl : Nat}
    (f : Diary U α δ → Except TFault (Diary U α δ)) (g : Sp α δ → Except Err (Sp α δ))
    (hfg : ∀ sp d, RelD c uid sl sp d → Agree (fun d' sp' => RelD c uid sl sp' d') (f d) (g sp))
    {sps : List (Sp α δ)} {ds : List (Diary U α δ)} (h : List.Forall₂ (RelD c uid sl) sps ds)
    (k : Nat) :
    Agree (fun ds' sps' => List.Forall₂ (RelD c uid sl) sps' ds') (onDiary f k ds)
      (onSpecies g k sps) := by
  induction h generalizing k with
  | nil => cases k <;> rfl
  | @cons sp d sps ds h hs ih =>
    cases k with
    | zero =>
      simp only [onDiary, onSpecies, bind, Except.bind, pure, Except.pure]
      have := hfg sp d h
      cases hf : f d with
      | error e =>
        rw [hf] at this
        cases e with
        | raises e =>
          simp only [Agree] at this ⊢
          rw [this]
        | _ => trivial
      | ok d' =>
        rw [hf] at this
        obtain ⟨sp', e, hr⟩ := this
        rw [e]
        exact ⟨_, rfl, .cons hr hs⟩
    | succ k =>
      simp only [onDiary, onSpecies, bind, Except.bind, pure, Except.pure]
      have := ih k
      cases hf : onDiary f k ds with
      | error e =>
        rw [hf] at this
        cases e with
        | raises e =>
          simp only [Agree] at this ⊢
          rw [this]
        | _ => trivial
      | ok d' =>
        rw [hf] at this
        obtain ⟨sp', e, hr⟩ := this
        rw [e]
        exact ⟨_, rfl, .cons h hr⟩

/-! ### Programs -/

/-- The motion keeps identities and trajectory flags. -/
def Op.Keeps (c : Cfg α δ) (uid : α → U) : Op τ α δ T → Prop
  | .advance _ m => ∀ k (st : τ) (p : α) (st' : τ) (p' : α) (evs : List (α × T)),
      m.core k st p = .ok (st', p', evs) →
      uid p' = uid p ∧ c.isTraj p' = c.isTraj p ∧ ∀ ev ∈ evs, c.isTraj ev.1 = c.isTraj p
  | _ => True

/-- The whole state. -/
structure Rel (c : Cfg α δ) (uid : α → U) (sl : Nat) (w : World τ α δ) (i : Diaries τ U α δ) :
    Prop where
  sps : List.Forall₂ (RelD c uid sl) w.sps i.pops
  side : w.side = i.side
  last : w.last = i.last

theorem exec_agree {c : Cfg α δ} {uid : α → U} {sl : Nat} (op : Op τ α δ T)
    (hk : op.Keeps c uid) {w : World τ α δ} {i : Diaries τ U α δ} (h : Rel c uid sl w i) :
    Agree (fun i' w' => Rel c uid sl w' i') (i.exec c uid sl op) (exec c w op) := by
  cases op with
  | advance charged m =>
    have key := advance_agree c uid sl w.last charged m (fun k st p st' p' evs hc => hk k st p st' p' evs hc)
      h.sps 0 w.side
    simp only [Diaries.exec, exec, bind, Except.bind, pure, Except.pure]
    rw [← h.last, ← h.side]
    cases hm : moveDiaries c uid sl w.last charged m 0 i.pops w.side with
    | error f =>
      rw [hm] at key
      cases f with
      | raises e =>
        simp only [Agree] at key ⊢
        rw [key]
      | _ => trivial
    | ok r =>
      rw [hm] at key
      obtain ⟨b, e, h1, h2⟩ := key
      rw [e]
      exact ⟨_, rfl, h1, h2, rfl⟩
  | record step mkC mkN =>
    simp only [Diaries.exec, exec, record]
    rw [← h.last]
    by_cases hl : w.last = some step
    · rw [if_pos hl, if_pos hl.symm]
      exact ⟨w, rfl, h⟩
    · have hl2 : ¬ some step = w.last := fun hc => hl hc.symm
      rw [if_neg hl, if_neg hl2]
      by_cases hr : i.pops.all (Diary.room c uid) = true
      · rw [if_pos hr]
        obtain ⟨s1, e1, h1⟩ := recordCharged_ok h.sps hr mkC mkN
        obtain ⟨s2, e2, h2⟩ := recordNeutral_ok mkC mkN h1 hr
        simp only [bind, Except.bind, pure, Except.pure, e1, e2, Bool.false_eq_true, if_false]
        exact ⟨_, rfl, h2, h.side, rfl⟩
      · rw [if_neg hr]
        trivial
  | create k p first =>
    have key := onSpecies_agree _ _ (fun sp d hr => create_agree hr p first) h.sps k
    simp only [Diaries.exec, exec, bind, Except.bind, pure, Except.pure]
    cases hm : onDiary (Diary.create c uid sl p first) k i.pops with
    | error f =>
      rw [hm] at key
      cases f with
      | raises e =>
        simp only [Agree] at key ⊢
        rw [key]
      | _ => trivial
    | ok r =>
      rw [hm] at key
      obtain ⟨b, e, h1⟩ := key
      rw [e]
      exact ⟨_, rfl, h1, h.side, h.last⟩
  | look k =>
    have key := onSpecies_agree (c := c) (uid := uid) (sl := sl) _ _ (fun sp d hr => look_agree hr)
      h.sps k
    simp only [Diaries.exec, exec, bind, Except.bind, pure, Except.pure]
    cases hm : onDiary Diary.look k i.pops with
    | error f =>
      rw [hm] at key
      cases f with
      | raises e =>
        simp only [Agree] at key ⊢
        rw [key]
      | _ => trivial
    | ok r =>
      rw [hm] at key
      obtain ⟨b, e, h1⟩ := key
      rw [e]
      exact ⟨_, rfl, h1, h.side, h.last⟩
  | other f =>
    simp only [Diaries.exec, exec, bind, Except.bind, pure, Except.pure]
    rw [← h.side]
    cases f w.side with
    | error e => rfl
    | ok s => exact ⟨_, rfl, h.sps, rfl, h.last⟩

theorem run_agree {c : Cfg α δ} {uid : α → U} {sl : Nat} (ops : List (Op τ α δ T))
    (hk : ∀ op ∈ ops, op.Keeps c uid) {w : World τ α δ} {i : Diaries τ U α δ}
    (h : Rel c uid sl w i) :
    Agree (fun i' w' => Rel c uid sl w' i') (i.run c uid sl ops) (run c w ops) := by
  induction ops generalizing w i with
  | nil => exact ⟨w, rfl, h⟩
  | cons op ops ih =>
    have key := exec_agree op (hk op (by simp)) h
    simp only [Diaries.run, run, List.foldlM_cons, bind, Except.bind]
    cases he : i.exec c uid sl op with
    | error f =>
      rw [he] at key
      cases f with
      | raises e =>
        simp only [Agree] at key ⊢
        rw [key]
      | _ => trivial
    | ok i' =>
      rw [he] at key
      obtain ⟨w', e, h'⟩ := key
      rw [e]
      exact ih (fun op ho => hk op (by simp [ho])) h'

end TrajLoop
end Dt
