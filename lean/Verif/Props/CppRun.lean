import Verif.Spec.CppRun
import Verif.Props.CppArrays
import Verif.Props.CppProgram
import Verif.Props.Leapfrog
import Verif.Props.Wall
import Verif.Props.Cross

/-!
# A program with the compiled movers moves the particles in leapfrog steps (C108)
-/

set_option linter.unusedSectionVars false

namespace Dt
open SAP Spec CppMover Dt.Topology
open CppProgram (Op Obs)
open CppRun (Side)
variable {K : Type} [Field K] [LinearOrder K] [IsStrictOrderedRing K] {g p : Nat} {τ ρ σ : Type}

/-! ### Mover calls on plain lists -/

theorem plainAdvance_cons {α : Type} (isDel : α → Bool) (charged : Bool) (core : Nat → Adv σ α) (k : Nat) (c : Bool)
    (xs : List α) (sps : List (Bool × List α)) (st : σ) :
    Prog.plainAdvance isDel charged core k ((c, xs) :: sps) st =
      match (if c = charged then
        (pass (skipping (if charged then fun _ => false else isDel) (core k)) st 0 0 xs).map Prod.swap
        else Except.ok (xs, st)) with
      | .error e => .error e
      | .ok (ys, st') =>
        match Prog.plainAdvance isDel charged core (k + 1) sps st' with
        | .error e => .error e
        | .ok (sps', st'') => .ok ((c, ys) :: sps', st'') := by
  simp only [Prog.plainAdvance, bind, Except.bind]
  split
  · cases (pass (skipping (if charged then fun _ => false else isDel) (core k)) st 0 0 xs).map Prod.swap with
    | error e => rfl
    | ok r =>
      dsimp only
      cases Prog.plainAdvance isDel charged core (k + 1) sps r.2 <;> rfl
  · dsimp only
    cases Prog.plainAdvance isDel charged core (k + 1) sps st <;> rfl

theorem plainAdvance_moves {charged : Bool} {core : Nat → Adv σ (Part K p ρ)} {P : Part K p ρ → Prop}
    {motion : Nat → Part K p ρ → Vec K p × Vec K p × ρ} {keep : Vec K p → Bool}
    (hdel : ∀ q, P q → q.del = false)
    (hk : ∀ k st i o b x st' y f, P x → core k st i o b x = .ok (st', y, f) →
      kin y = motion k x ∧ f = keep (motion k x).1 ∧ (f = true → P y)) :
    ∀ (k : Nat) (ls : List (Bool × List (Part K p ρ))) (st : σ) {ms : List (Bool × List (Part K p ρ))} {st' : σ},
      (∀ l ∈ ls, ∀ x ∈ l.2, P x) → Prog.plainAdvance (·.del) charged core k ls st = .ok (ms, st') →
      MovedAll charged (fun j => motion (k + j)) keep ls ms ∧ ∀ l ∈ ms, ∀ x ∈ l.2, P x := by
  intro k ls
  induction ls generalizing k with
  | nil =>
    intro st ms st' _ e
    simp only [Prog.plainAdvance, Except.ok.injEq, Prod.mk.injEq] at e
    rw [← e.1]
    exact ⟨⟨rfl, fun k c xs h => by simp at h⟩, by simp⟩
  | cons l ls ih =>
    obtain ⟨c, xs⟩ := l
    intro st ms st' hP e
    rw [plainAdvance_cons] at e
    have hx : ∀ x ∈ xs, P x := hP (c, xs) (by simp)
    have hrest : ∀ l ∈ ls, ∀ x ∈ l.2, P x := fun l hl => hP l (by simp [hl])
    -- one list
    have one : ∀ {ys : List (Part K p ρ)} {st1 : σ}, (if c = charged then
        (pass (skipping (if charged then fun _ => false else (·.del)) (core k)) st 0 0 xs).map Prod.swap
        else Except.ok (xs, st)) = .ok (ys, st1) →
        ((c ≠ charged → ys = xs) ∧ (c = charged → ys.map kin = (xs.map (motion k)).filter (fun z => keep z.1))) ∧
        ∀ y ∈ ys, P y := by
      intro ys st1 h
      by_cases hc : c = charged
      · rw [if_pos hc] at h
        cases hp : pass (skipping (if charged then fun _ => false else (·.del)) (core k)) st 0 0 xs with
        | error e' => rw [hp] at h; cases h
        | ok r =>
          obtain ⟨st2, zs⟩ := r
          rw [hp] at h
          simp only [Except.map, Prod.swap, Except.ok.injEq, Prod.mk.injEq] at h
          obtain ⟨rfl, rfl⟩ := h
          have hsk : ∀ st i o b x st' y f, P x →
              skipping (if charged then fun _ => false else (·.del)) (core k) st i o b x = .ok (st', y, f) →
              core k st i o b x = .ok (st', y, f) := by
            intro st i o b x st' y f hpx h
            unfold skipping at h
            rw [if_neg] at h
            · exact h
            · cases charged
              · simpa using hdel x hpx
              · simp
          refine ⟨⟨fun h => absurd hc h, fun _ => ?_⟩, ?_⟩
          · refine pass_filter kin (motion k) (fun z => keep z.1) (P := P) ?_ hx hp
            intro st i o b x st' y f hpx h
            obtain ⟨h1, h2, -⟩ := hk _ _ _ _ _ _ _ _ _ hpx (hsk _ _ _ _ _ _ _ _ hpx h)
            exact ⟨h1, h2⟩
          · have := (TimeLoop.pass_res (P := P) (Q := fun _ => True)
              (adv := skipping (if charged then fun _ => false else (·.del)) (core k)) ?_ hx st 0 0).1 _ _ hp
            · exact this
            · intro st i o b x hpx
              exact ⟨fun st' y h => (hk _ _ _ _ _ _ _ _ _ hpx (hsk _ _ _ _ _ _ _ _ hpx h)).2.2 rfl, fun _ _ => trivial⟩
      · rw [if_neg hc] at h
        simp only [Except.ok.injEq, Prod.mk.injEq] at h
        obtain ⟨rfl, -⟩ := h
        exact ⟨⟨fun _ => rfl, fun h => absurd h hc⟩, hx⟩
    split at e
    · cases e
    · rename_i ys st1 hr
      obtain ⟨h1, h2⟩ := one hr
      split at e
      · cases e
      · rename_i ms2 st2 hr2
        simp only [Except.ok.injEq, Prod.mk.injEq] at e
        obtain ⟨rfl, rfl⟩ := e
        obtain ⟨⟨i1, i2⟩, i3⟩ := ih (k + 1) st1 hrest hr2
        refine ⟨⟨by simp [i1], ?_⟩, ?_⟩
        · intro j c' xs' hj
          cases j with
          | zero =>
            simp only [List.getElem?_cons_zero, Option.some.injEq, Prod.mk.injEq] at hj
            obtain ⟨rfl, rfl⟩ := hj
            exact ⟨ys, by simp, h1⟩
          | succ j =>
            rw [List.getElem?_cons_succ] at hj
            obtain ⟨ys', a1, a2, a3⟩ := i2 j c' xs' hj
            refine ⟨ys', by simpa using a1, a2, fun hc => ?_⟩
            rw [a3 hc]
            dsimp only
            rw [show k + 1 + j = k + (j + 1) by omega]
        · intro l hl
          rcases List.mem_cons.1 hl with rfl | hl
          · exact h2
          · exact i3 l hl

theorem plainAdvance_kept {charged : Bool} {core : Nat → Adv σ (Part K p ρ)} {P : Part K p ρ → Prop}
    (hdel : ∀ q, P q → q.del = false)
    (hk : ∀ k st i o b x st' y, P x → core k st i o b x = .ok (st', y, true) → P y)
    (k : Nat) (ls : List (Bool × List (Part K p ρ))) (st : σ) {ms : List (Bool × List (Part K p ρ))} {st' : σ}
    (hP : ∀ l ∈ ls, ∀ x ∈ l.2, P x) (e : Prog.plainAdvance (·.del) charged core k ls st = .ok (ms, st')) :
    ms.length = ls.length ∧ ∀ l ∈ ms, ∀ x ∈ l.2, P x := by
  induction ls generalizing k st ms with
  | nil =>
    simp only [Prog.plainAdvance, Except.ok.injEq, Prod.mk.injEq] at e
    rw [← e.1]
    exact ⟨rfl, by simp⟩
  | cons l ls ih =>
    obtain ⟨c, xs⟩ := l
    rw [plainAdvance_cons] at e
    have hx : ∀ x ∈ xs, P x := hP (c, xs) (by simp)
    have hrest : ∀ l ∈ ls, ∀ x ∈ l.2, P x := fun l hl => hP l (by simp [hl])
    split at e
    · cases e
    · rename_i ys st1 hr
      split at e
      · cases e
      · rename_i ms2 st2 hr2
        simp only [Except.ok.injEq, Prod.mk.injEq] at e
        obtain ⟨rfl, rfl⟩ := e
        obtain ⟨i1, i2⟩ := ih (k + 1) st1 hrest hr2
        refine ⟨by simp [i1], fun l hl => ?_⟩
        rcases List.mem_cons.1 hl with rfl | hl
        · split at hr
          · cases hp : pass (skipping (if charged then fun _ => false else (·.del)) (core k)) st 0 0 xs with
            | error e' => rw [hp] at hr; cases hr
            | ok r =>
              obtain ⟨st2, zs⟩ := r
              rw [hp] at hr
              simp only [Except.map, Prod.swap, Except.ok.injEq, Prod.mk.injEq] at hr
              obtain ⟨rfl, rfl⟩ := hr
              refine (TimeLoop.pass_res (P := P) (Q := fun _ => True)
                (adv := skipping (if charged then fun _ => false else (·.del)) (core k)) ?_ hx st 0 0).1 _ _ hp
              intro st i o b x hpx
              refine ⟨fun st' y h => ?_, fun _ _ => trivial⟩
              unfold skipping at h
              rw [if_neg] at h
              · exact hk _ _ _ _ _ _ _ _ hpx h
              · cases charged
                · simpa using hdel x hpx
                · simp
          · simp only [Except.ok.injEq, Prod.mk.injEq] at hr
            rw [← hr.1]
            exact hx
        · exact i2 l hl

theorem plainAdvance_succeeds {charged : Bool} {core : Nat → Adv σ (Part K p ρ)} {P : Part K p ρ → Prop}
    (hok : ∀ k st i o b x, P x → ∃ r, core k st i o b x = .ok r) :
    ∀ (k : Nat) (ls : List (Bool × List (Part K p ρ))) (st : σ), (∀ l ∈ ls, ∀ x ∈ l.2, P x) →
      ∃ r, Prog.plainAdvance (·.del) charged core k ls st = .ok r := by
  have hpass : ∀ k (xs : List (Part K p ρ)) (st : σ) (i o : Nat), (∀ x ∈ xs, P x) →
      ∃ r, pass (skipping (if charged then fun _ => false else (·.del)) (core k)) st i o xs = .ok r := by
    intro k xs
    induction xs with
    | nil => intro st i o _; exact ⟨_, rfl⟩
    | cons x xs ih =>
      intro st i o hx
      have hx' : ∀ y ∈ xs, P y := fun y hy => hx y (by simp [hy])
      have : ∃ r, skipping (if charged then fun _ => false else (·.del)) (core k) st i o (decide (o ≠ i)) x = .ok r := by
        unfold skipping
        by_cases hs : (if charged then fun _ => false else fun q : Part K p ρ => q.del) x = true
        · rw [if_pos hs]; exact ⟨_, rfl⟩
        · rw [if_neg hs]; exact hok _ _ _ _ _ _ (hx x (by simp))
      obtain ⟨⟨st1, y, f⟩, h1⟩ := this
      simp only [pass]
      rw [h1]
      cases f
      · exact ih _ _ _ hx'
      · obtain ⟨⟨st2, ys⟩, h2⟩ := ih st1 (i + 1) (o + 1) hx'
        dsimp only
        rw [h2]
        exact ⟨_, rfl⟩
  intro k ls
  induction ls generalizing k with
  | nil => intro st _; exact ⟨_, rfl⟩
  | cons l ls ih =>
    obtain ⟨c, xs⟩ := l
    intro st hP
    have hx : ∀ x ∈ xs, P x := hP (c, xs) (by simp)
    have hrest : ∀ l ∈ ls, ∀ x ∈ l.2, P x := fun l hl => hP l (by simp [hl])
    have one : ∃ r, (if c = charged then
        (pass (skipping (if charged then fun _ => false else (·.del)) (core k)) st 0 0 xs).map Prod.swap
        else Except.ok (xs, st)) = .ok r := by
      split
      · obtain ⟨r, hr⟩ := hpass k xs st 0 0 hx
        rw [hr]
        exact ⟨_, rfl⟩
      · exact ⟨_, rfl⟩
    obtain ⟨⟨ys, st1⟩, h1⟩ := one
    obtain ⟨⟨ms, st2⟩, h2⟩ := ih (k + 1) st1 hrest
    rw [plainAdvance_cons, h1]
    dsimp only
    rw [h2]
    exact ⟨_, rfl⟩

/-! ### Programs -/

/-- The particles a program creates. -/
def CppRun.Call.Creates (P : Part K p ρ → Prop) : CppRun.Call K p ρ → Prop
  | .createList _ q | .createSource _ q => P q
  | _ => True

/-- The species a call names exist. -/
def CppRun.Call.Names (n : Nat) : CppRun.Call K p ρ → Prop
  | .createList k _ | .createSource k _ | .look k => k < n
  | _ => True

section
variable {op : CppRun.Call K p ρ → Op σ (Part K p ρ)}
  {coreC : K → (Nat → Part K p ρ → Option (Vec K p)) → Nat → Adv σ (Part K p ρ)}
  {coreN : K → Nat → Adv σ (Part K p ρ)} {P : Part K p ρ → Prop}

theorem plainRun_moves
    {motionC : Nat → (Part K p ρ → Option (Vec K p)) → Part K p ρ → Vec K p × Vec K p × ρ}
    {motionN : Nat → Part K p ρ → Vec K p × Vec K p × ρ} {keep : Vec K p → Bool} {sl : Nat}
    (o1 : ∀ t E, op (.charged t E) = .advance true (coreC t E)) (o2 : ∀ t, op (.neutral t) = .advance false (coreN t))
    (o3 : ∀ k q, op (.createList k q) = .createList k q) (o4 : ∀ k q, op (.createSource k q) = .createSource k q)
    (o5 : ∀ k, op (.look k) = .look k)
    (hdel : ∀ q, P q → q.del = false)
    (hC : ∀ t E k st i o b x st' y f, P x → coreC t E k st i o b x = .ok (st', y, f) →
      kin y = motionC k (E k) x ∧ f = keep (motionC k (E k) x).1 ∧ (f = true → P y))
    (hN : ∀ t k st i o b x st' y f, P x → coreN t k st i o b x = .ok (st', y, f) →
      kin y = motionN k x ∧ f = keep (motionN k x).1 ∧ (f = true → P y)) :
    ∀ (cs : List (CppRun.Call K p ρ)) (ls : List (Bool × List (Part K p ρ))) (st : σ)
      {ms : List (Bool × List (Part K p ρ))} {st' : σ} {os : List (Obs (Part K p ρ))},
      (∀ l ∈ ls, ∀ x ∈ l.2, P x) → (∀ c ∈ cs, c.Creates P) →
      Prog.plainRun sl (·.del) (cs.map op) (ls, st) = .ok ((ms, st'), os) →
      Runs motionC motionN keep sl cs ls os ms ∧ ∀ l ∈ ms, ∀ x ∈ l.2, P x := by
  intro cs
  induction cs with
  | nil =>
    intro ls st ms st' os hP _ e
    simp only [List.map_nil, Prog.plainRun, Except.ok.injEq, Prod.mk.injEq] at e
    obtain ⟨⟨rfl, -⟩, rfl⟩ := e
    exact ⟨.nil _, hP⟩
  | cons c cs ih =>
    intro ls st ms st' os hP hcr e
    have hcr' : ∀ c ∈ cs, c.Creates P := fun c hc => hcr c (by simp [hc])
    have hc0 := hcr c (by simp)
    simp only [List.map_cons, Prog.plainRun, bind, Except.bind] at e
    have add : ∀ {k : Nat} {q : Part K p ρ} {c : Bool} {xs : List (Part K p ρ)}, P q → ls[k]? = some (c, xs) →
        ∀ l ∈ ls.set k (c, xs ++ [q]), ∀ x ∈ l.2, P x := by
      intro k q c xs hq hk l hl x hx
      rcases List.mem_or_eq_of_mem_set hl with h | rfl
      · exact hP l h x hx
      · rcases List.mem_append.1 hx with h | h
        · exact hP _ (List.mem_of_getElem? hk) x h
        · rw [List.mem_singleton.1 h]; exact hq
    split at e
    · cases e
    · rename_i r hr
      obtain ⟨⟨ls1, st1⟩, os1⟩ := r
      dsimp only at e
      split at e
      · cases e
      · rename_i r2 hr2
        obtain ⟨⟨ls2, st2⟩, os2⟩ := r2
        simp only [pure, Except.pure, Except.ok.injEq, Prod.mk.injEq] at e
        obtain ⟨⟨rfl, rfl⟩, rfl⟩ := e
        cases c with
        | charged t E =>
          rw [o1] at hr
          simp only [Prog.plainExec, bind, Except.bind] at hr
          split at hr
          · cases hr
          · rename_i w hw
            obtain ⟨ms1, st3⟩ := w
            simp only [pure, Except.pure, Except.ok.injEq, Prod.mk.injEq] at hr
            obtain ⟨⟨rfl, rfl⟩, rfl⟩ := hr
            obtain ⟨h1, h2⟩ := plainAdvance_moves hdel (hC t E) 0 ls st hP hw
            obtain ⟨h3, h4⟩ := ih ms1 st3 h2 hcr' hr2
            refine ⟨.charged ?_ h3, h4⟩
            simpa using h1
        | neutral t =>
          rw [o2] at hr
          simp only [Prog.plainExec, bind, Except.bind] at hr
          split at hr
          · cases hr
          · rename_i w hw
            obtain ⟨ms1, st3⟩ := w
            simp only [pure, Except.pure, Except.ok.injEq, Prod.mk.injEq] at hr
            obtain ⟨⟨rfl, rfl⟩, rfl⟩ := hr
            obtain ⟨h1, h2⟩ := plainAdvance_moves hdel (hN t) 0 ls st hP hw
            obtain ⟨h3, h4⟩ := ih ms1 st3 h2 hcr' hr2
            refine ⟨.neutral ?_ h3, h4⟩
            simpa using h1
        | createList k q =>
          rw [o3] at hr
          simp only [Prog.plainExec] at hr
          split at hr
          · cases hr
          · rename_i c xs hk
            simp only [Except.ok.injEq, Prod.mk.injEq] at hr
            obtain ⟨⟨rfl, rfl⟩, rfl⟩ := hr
            obtain ⟨h3, h4⟩ := ih _ _ (add hc0 hk) hcr' hr2
            exact ⟨.createList hk h3, h4⟩
        | createSource k q =>
          rw [o4] at hr
          simp only [Prog.plainExec] at hr
          split at hr
          · cases hr
          · rename_i c xs hk
            simp only [Except.ok.injEq, Prod.mk.injEq] at hr
            obtain ⟨⟨rfl, rfl⟩, rfl⟩ := hr
            obtain ⟨h3, h4⟩ := ih _ _ (add hc0 hk) hcr' hr2
            exact ⟨.createSource hk h3, h4⟩
        | look k =>
          rw [o5] at hr
          simp only [Prog.plainExec] at hr
          split at hr
          · cases hr
          · rename_i c xs hk
            simp only [Except.ok.injEq, Prod.mk.injEq] at hr
            obtain ⟨⟨rfl, rfl⟩, rfl⟩ := hr
            obtain ⟨h3, h4⟩ := ih _ _ hP hcr' hr2
            exact ⟨.look hk h3, h4⟩


theorem plainRun_succeeds {sl : Nat}
    (o1 : ∀ t E, op (.charged t E) = .advance true (coreC t E)) (o2 : ∀ t, op (.neutral t) = .advance false (coreN t))
    (o3 : ∀ k q, op (.createList k q) = .createList k q) (o4 : ∀ k q, op (.createSource k q) = .createSource k q)
    (o5 : ∀ k, op (.look k) = .look k)
    (hdel : ∀ q, P q → q.del = false)
    (hC : ∀ t E k st i o b x, P x → ∃ st' y f, coreC t E k st i o b x = .ok (st', y, f) ∧ (f = true → P y))
    (hN : ∀ t k st i o b x, P x → ∃ st' y f, coreN t k st i o b x = .ok (st', y, f) ∧ (f = true → P y)) :
    ∀ (cs : List (CppRun.Call K p ρ)) (ls : List (Bool × List (Part K p ρ))) (st : σ),
      (∀ l ∈ ls, ∀ x ∈ l.2, P x) → (∀ c ∈ cs, c.Creates P) → (∀ c ∈ cs, c.Names ls.length) →
      ∃ r, Prog.plainRun sl (·.del) (cs.map op) (ls, st) = .ok r := by
  intro cs
  induction cs with
  | nil => intro ls st _ _ _; exact ⟨_, rfl⟩
  | cons c cs ih =>
    intro ls st hP hcr hnm
    have hcr' : ∀ c ∈ cs, c.Creates P := fun c hc => hcr c (by simp [hc])
    have hnm' : ∀ c ∈ cs, c.Names ls.length := fun c hc => hnm c (by simp [hc])
    have hc0 := hcr c (by simp)
    have hn0 := hnm c (by simp)
    have fin : ∀ {ls1 : List (Bool × List (Part K p ρ))} {st1 : σ} {os1 : List (Obs (Part K p ρ))},
        Prog.plainExec sl (·.del) (ls, st) (op c) = .ok ((ls1, st1), os1) → ls1.length = ls.length →
        (∀ l ∈ ls1, ∀ x ∈ l.2, P x) → ∃ r, Prog.plainRun sl (·.del) ((c :: cs).map op) (ls, st) = .ok r := by
      intro ls1 st1 os1 h1 h2 h3
      obtain ⟨r, hr⟩ := ih ls1 st1 h3 hcr' (by rw [h2]; exact hnm')
      simp only [List.map_cons, Prog.plainRun, bind, Except.bind]
      rw [h1]
      dsimp only
      rw [hr]
      exact ⟨_, rfl⟩
    have adv : ∀ {charged : Bool} {core : Nat → Adv σ (Part K p ρ)}, op c = .advance charged core →
        (∀ k st i o b x, P x → ∃ st' y f, core k st i o b x = .ok (st', y, f) ∧ (f = true → P y)) →
        ∃ r, Prog.plainRun sl (·.del) ((c :: cs).map op) (ls, st) = .ok r := by
      intro charged core ho hk
      obtain ⟨⟨ms, st1⟩, h1⟩ := plainAdvance_succeeds (charged := charged) (core := core) (P := P)
        (fun k st i o b x hx => by obtain ⟨a, y, f, h, -⟩ := hk k st i o b x hx; exact ⟨_, h⟩) 0 ls st hP
      obtain ⟨h2, h3⟩ := plainAdvance_kept hdel
        (fun k st i o b x st' y hx h => by
          obtain ⟨a, y', f, h', hf⟩ := hk k st i o b x hx
          rw [h] at h'
          simp only [Except.ok.injEq, Prod.mk.injEq] at h'
          obtain ⟨-, rfl, rfl⟩ := h'
          exact hf rfl) 0 ls st hP h1
      refine fin (ls1 := ms) (st1 := st1) (os1 := []) ?_ h2 h3
      rw [ho]
      simp only [Prog.plainExec, bind, Except.bind]
      rw [h1]
      rfl
    have add : ∀ {k : Nat} {q : Part K p ρ} {c : Bool} {xs : List (Part K p ρ)}, P q → ls[k]? = some (c, xs) →
        ∀ l ∈ ls.set k (c, xs ++ [q]), ∀ x ∈ l.2, P x := by
      intro k q c xs hq hk l hl x hx
      rcases List.mem_or_eq_of_mem_set hl with h | rfl
      · exact hP l h x hx
      · rcases List.mem_append.1 hx with h | h
        · exact hP _ (List.mem_of_getElem? hk) x h
        · rw [List.mem_singleton.1 h]; exact hq
    cases c with
    | charged t E => exact adv (o1 t E) (hC t E)
    | neutral t => exact adv (o2 t) (hN t)
    | createList k q =>
      have hk : ls[k]? = some (ls[k]'hn0) := List.getElem?_eq_getElem hn0
      refine fin (st1 := st) (os1 := [.created ((ls[k]'hn0).2.length % sl : Nat) (ls[k]'hn0).2.length q]) ?_ List.length_set (add (c := (ls[k]'hn0).1) (xs := (ls[k]'hn0).2) hc0 hk)
      rw [o3]
      simp only [Prog.plainExec]
      rw [hk]
    | createSource k q =>
      have hk : ls[k]? = some (ls[k]'hn0) := List.getElem?_eq_getElem hn0
      refine fin (st1 := st) (os1 := [.created ((ls[k]'hn0).2.length % sl : Nat) (ls[k]'hn0).2.length q]) ?_ List.length_set (add (c := (ls[k]'hn0).1) (xs := (ls[k]'hn0).2) hc0 hk)
      rw [o4]
      simp only [Prog.plainExec]
      rw [hk]
    | look k =>
      have hk : ls[k]? = some (ls[k]'hn0) := List.getElem?_eq_getElem hn0
      refine fin (ls1 := ls) (st1 := st) (os1 := [.items (ls[k]'hn0).2]) ?_ rfl hP
      rw [o5]
      simp only [Prog.plainExec]
      rw [hk]

end

/-! ### The compiled movers -/

section
variable {h : g ≤ p} {M : Mesh K g} {cm : CppMesh K} {LC LN : Layout K p}
  {bc : Nat → Int → τ → BCall K g p ρ → Except Err (τ × Part K p ρ)} {n : Nat} {dt : K} {qom : Nat → K}
  {fold : Vec K p × Vec K p × ρ → Vec K p × Vec K p × ρ} {keep : Vec K p → Bool}

/-- What a move of a particle does, in the compiled code. -/
theorem cppAdv_moves (ht : cm.Twin M) (hL : LC.Right) {f : Int → τ → BCall K g p ρ → Except Err (τ × Part K p ρ)} (hc : KeepsCell f)
    (hstep : ∀ t c E st q st' q' evs, Present h M q → moveCharged h M .charged f n t dt (c * dt) false E st q = .ok (st', q', evs) →
      kin q' = fold (leap dt c (E q) (kin q)) ∧ q'.del = !keep q'.x)
    {t c : K} {E : Part K p ρ → Option (Vec K p)} {st st' : Side K p τ} {i o : Int} {b : Bool} {q q' : Part K p ρ} {fl : Bool}
    (hq : Present h M q)
    (e : plainAdv (cppMoveCharged h LC cm f n t dt (c * dt) E) st i o b q = .ok (st', q', fl)) :
    kin q' = fold (leap dt c (E q) (kin q)) ∧ fl = keep (fold (leap dt c (E q) (kin q))).1 ∧ (fl = true → Present h M q') := by
  unfold plainAdv at e
  cases e1 : cppMoveCharged h LC cm f n t dt (c * dt) E st q with
  | error e' => rw [e1] at e; cases e
  | ok r =>
    obtain ⟨⟨st1, sc1⟩, q1, evs⟩ := r
    rw [e1] at e
    simp only [bind, Except.bind, pure, Except.pure, Except.ok.injEq, Prod.mk.injEq] at e
    obtain ⟨-, rfl, rfl⟩ := e
    have e2 := (C66_charged_particle ht h hL (bcC := f) (bcP := f) (fun _ _ _ _ => Iff.rfl) n t dt (c * dt) E st.1 st.2 q st1 q1 evs).1
      ⟨sc1, e1⟩
    obtain ⟨h1, h2⟩ := hstep _ _ _ _ _ _ _ _ hq e2
    refine ⟨h1, ?_, fun hd => ⟨?_, by simpa using hd⟩⟩
    · rw [← h1, h2]; simp [kin]
    · rcases C25_cell_label hc (.inl e2) with h3 | ⟨h3, -⟩
      · exact h3
      · rw [h3] at hd; cases hd

theorem cppAdv_succeeds (ht : cm.Twin M) (hL : LC.Right) {f : Int → τ → BCall K g p ρ → Except Err (τ × Part K p ρ)}
    {t c : K} {E : Part K p ρ → Option (Vec K p)}
    (hok : ∀ st q, Present h M q → ∃ r, moveCharged h M .charged f n t dt (c * dt) false E st q = .ok r)
    (st : Side K p τ) (i o : Int) (b : Bool) {q : Part K p ρ} (hq : Present h M q) :
    ∃ r, plainAdv (cppMoveCharged h LC cm f n t dt (c * dt) E) st i o b q = .ok r := by
  obtain ⟨⟨st', q', evs⟩, e⟩ := hok st.1 q hq
  obtain ⟨sc', e'⟩ := (C66_charged_particle ht h hL (bcC := f) (bcP := f) (fun _ _ _ _ => Iff.rfl) n t dt (c * dt) E st.1 st.2 q st' q' evs).2 e
  refine ⟨(⟨st', sc'⟩, q', !q'.del), ?_⟩
  unfold plainAdv
  rw [show st = (st.1, st.2) from rfl, e']
  rfl

theorem neutral_core (L : Layout K p) (f : Int → τ → BCall K g p ρ → Except Err (τ × Part K p ρ)) (t : K) :
    cppMoveNeutral h L cm f n t dt = cppMoveCharged h L cm f n t dt ((0 : K) * dt) (fun _ => none) := by
  funext st q
  rw [zero_mul]
  rfl

/-- A program with the layout of the neutral mover replaced, if it does not move neutral particles. -/
theorem map_op {cs : List (CppRun.Call K p ρ)} (hn : ∀ t, .neutral t ∉ cs) (L : Layout K p) :
    cs.map (CppRun.Call.op h LC LN cm bc n dt qom) = cs.map (CppRun.Call.op h LC L cm bc n dt qom) := by
  refine List.map_congr_left fun c hc => ?_
  cases c with
  | neutral t => exact absurd hc (hn t)
  | _ => rfl

theorem program_moves (ht : cm.Twin M) (hLC : LC.Right) {cs : List (CppRun.Call K p ρ)} (hLN : (∃ t, .neutral t ∈ cs) → LN.Right)
    (hc : ∀ k, KeepsCell (bc k))
    (hstep : ∀ k t c E st q st' q' evs, Present h M q → moveCharged h M .charged (bc k) n t dt (c * dt) false E st q = .ok (st', q', evs) →
      kin q' = fold (leap dt c (E q) (kin q)) ∧ q'.del = !keep q'.x)
    {sl : Nat} (h2 : 2 ≤ sl) (junk : Part K p ρ) (charges : List Bool) (hbig : cs.length < 4294967296)
    (hcr : ∀ c ∈ cs, c.Creates (Present h M)) (st : Side K p τ) {sps : List (CppProgram.Sp (Part K p ρ))} {st' : Side K p τ}
    {os : List (Obs (Part K p ρ))}
    (e : CppProgram.run (·.del) (cs.map (CppRun.Call.op h LC LN cm bc n dt qom)) (CppProgram.start sl junk charges, st) = .ok ((sps, st'), os)) :
    ∃ ms, Runs (fun k E q => fold (leap dt (qom k) (E q) (kin q))) (fun _ q => fold (leap dt 0 none (kin q))) keep sl cs
        (charges.map (fun c => (c, []))) os ms ∧
      List.Forall₂ (fun sp l => sp.charged = l.1 ∧ CStores sp.sap l.2) sps ms ∧ ∀ l ∈ ms, ∀ q ∈ l.2, Present h M q := by
  obtain ⟨L, hL, hmap⟩ : ∃ L : Layout K p, L.Right ∧
      cs.map (CppRun.Call.op h LC LN cm bc n dt qom) = cs.map (CppRun.Call.op h LC L cm bc n dt qom) := by
    by_cases hx : ∃ t, .neutral t ∈ cs
    · exact ⟨LN, hLN hx, rfl⟩
    · exact ⟨LC, hLC, map_op (fun t ht => hx ⟨t, ht⟩) LC⟩
  rw [hmap] at e
  have key := C81_sources_partial h2 (·.del) junk charges (cs.map (CppRun.Call.op h LC L cm bc n dt qom)) (by simpa using hbig) st
  rw [e] at key
  rcases key with hk | key
  · cases hk
  cases hr : Prog.plainRun sl (·.del) (cs.map (CppRun.Call.op h LC L cm bc n dt qom)) (charges.map (fun c => (c, [])), st) with
  | error e' => rw [hr] at key; cases key
  | ok r =>
    obtain ⟨⟨ms, st1⟩, os1⟩ := r
    rw [hr] at key
    obtain ⟨sps1, e1, hF⟩ := key
    simp only [Except.ok.injEq, Prod.mk.injEq] at e1
    obtain ⟨⟨rfl, rfl⟩, rfl⟩ := e1
    obtain ⟨h3, h4⟩ := plainRun_moves (op := CppRun.Call.op h LC L cm bc n dt qom) (P := Present h M)
      (coreC := fun t E k => plainAdv (cppMoveCharged h LC cm (bc k) n t dt (qom k * dt) (E k)))
      (coreN := fun t k => plainAdv (cppMoveNeutral h L cm (bc k) n t dt))
      (motionC := fun k E q => fold (leap dt (qom k) (E q) (kin q))) (motionN := fun _ q => fold (leap dt 0 none (kin q))) (keep := keep)
      (fun _ _ => rfl) (fun _ => rfl) (fun _ _ => rfl) (fun _ _ => rfl) (fun _ => rfl) (fun q hq => hq.2)
      (fun t E k st i o b x st' y f hx e => cppAdv_moves ht hLC (hc k) (hstep k) hx e)
      (fun t k st i o b x st' y f hx e => by
        rw [neutral_core] at e
        exact cppAdv_moves ht hL (hc k) (hstep k) hx e)
      cs _ st (by
        intro l hl x hx
        obtain ⟨c, -, rfl⟩ := List.mem_map.1 hl
        cases hx) hcr hr
    exact ⟨ms, h3, hF, h4⟩

theorem program_succeeds (ht : cm.Twin M) (hLC : LC.Right) {cs : List (CppRun.Call K p ρ)} (hLN : (∃ t, .neutral t ∈ cs) → LN.Right)
    (hc : ∀ k, KeepsCell (bc k))
    (hstep : ∀ k t c E st q st' q' evs, Present h M q → moveCharged h M .charged (bc k) n t dt (c * dt) false E st q = .ok (st', q', evs) →
      kin q' = fold (leap dt c (E q) (kin q)) ∧ q'.del = !keep q'.x)
    (hok : ∀ k t c E st q, Present h M q → ∃ r, moveCharged h M .charged (bc k) n t dt (c * dt) false E st q = .ok r)
    {sl : Nat} (h2 : 2 ≤ sl) (junk : Part K p ρ) (charges : List Bool) (hbig : cs.length < 4294967296)
    (hcr : ∀ c ∈ cs, c.Creates (Present h M)) (hnm : ∀ c ∈ cs, c.Names charges.length)
    (st : Side K p τ) :
    (∃ r, CppProgram.run (·.del) (cs.map (CppRun.Call.op h LC LN cm bc n dt qom)) (CppProgram.start sl junk charges, st) = .ok r) ∨
    ((∃ k q, .createSource k q ∈ cs) ∧
      CppProgram.run (·.del) (cs.map (CppRun.Call.op h LC LN cm bc n dt qom)) (CppProgram.start sl junk charges, st) = .error .abort) := by
  obtain ⟨L, hL, hmap⟩ : ∃ L : Layout K p, L.Right ∧
      cs.map (CppRun.Call.op h LC LN cm bc n dt qom) = cs.map (CppRun.Call.op h LC L cm bc n dt qom) := by
    by_cases hx : ∃ t, .neutral t ∈ cs
    · exact ⟨LN, hLN hx, rfl⟩
    · exact ⟨LC, hLC, map_op (fun t ht => hx ⟨t, ht⟩) LC⟩
  rw [hmap]
  obtain ⟨⟨⟨ms, st1⟩, os1⟩, hr⟩ := plainRun_succeeds (op := CppRun.Call.op h LC L cm bc n dt qom) (P := Present h M) (sl := sl)
    (coreC := fun t E k => plainAdv (cppMoveCharged h LC cm (bc k) n t dt (qom k * dt) (E k)))
    (coreN := fun t k => plainAdv (cppMoveNeutral h L cm (bc k) n t dt))
    (fun _ _ => rfl) (fun _ => rfl) (fun _ _ => rfl) (fun _ _ => rfl) (fun _ => rfl) (fun q hq => hq.2)
    (fun t E k st i o b x hx => by
      obtain ⟨⟨st', y, f⟩, e⟩ := cppAdv_succeeds (cm := cm) ht hLC (fun st q hq => hok k t (qom k) (E k) st q hq) st i o b hx
      exact ⟨st', y, f, e, (cppAdv_moves ht hLC (hc k) (hstep k) hx e).2.2⟩)
    (fun t k st i o b x hx => by
      obtain ⟨⟨st', y, f⟩, e⟩ := cppAdv_succeeds (cm := cm) ht hL (fun st q hq => hok k t 0 (fun _ => none) st q hq) st i o b hx
      refine ⟨st', y, f, ?_, (cppAdv_moves ht hL (hc k) (hstep k) hx e).2.2⟩
      rw [neutral_core]
      exact e)
    cs (charges.map (fun c => (c, []))) st (by
      intro l hl x hx
      obtain ⟨c, -, rfl⟩ := List.mem_map.1 hl
      cases hx) hcr (by simpa using hnm)
  by_cases hs : ∃ k q, .createSource k q ∈ cs
  · have key := C81_sources_partial h2 (·.del) junk charges (cs.map (CppRun.Call.op h LC L cm bc n dt qom)) (by simpa using hbig) st
    rw [hr] at key
    rcases key with key | ⟨sps, e, -⟩
    · exact .inr ⟨hs, key⟩
    · exact .inl ⟨_, e⟩
  · have key := C81_no_sources h2 (·.del) junk charges (cs.map (CppRun.Call.op h LC L cm bc n dt qom)) (by simpa using hbig) (by
      intro k q hm
      obtain ⟨c, hc, e⟩ := List.mem_map.1 hm
      cases c with
      | createSource k' q' => exact hs ⟨k', q', hc⟩
      | _ => cases e) st
    rw [hr] at key
    obtain ⟨sps, e, -⟩ := key
    exact .inl ⟨_, e⟩

/-- C108.  Programs with the compiled movers on a convex domain with callbacks that count or delete: when such a program
comes to its end, every charged-particle call has moved every particle of every charged species by one leapfrog step in the
field of the call and dropped those that are outside the domain then, every neutral-particle call has moved the neutral ones
by `v dt`, and everything the program saw (returned indices and loops over the particles) and every container at the end shows this. -/
theorem C108_convex (hM : M.Conforming) {dom : Vec K g → Bool} (hd : M.Convex dom) (ht : cm.Twin M) (hLC : LC.Right)
    {cs : List (CppRun.Call K p ρ)} (hLN : (∃ t, .neutral t ∈ cs) → LN.Right) (hb : ∀ k, PlainBC M (bc k))
    {sl : Nat} (h2 : 2 ≤ sl) (junk : Part K p ρ) (charges : List Bool) (hbig : cs.length < 4294967296)
    (hcr : ∀ c ∈ cs, c.Creates (Present h M)) (st : Side K p τ) {sps : List (CppProgram.Sp (Part K p ρ))} {st' : Side K p τ}
    {os : List (Obs (Part K p ρ))}
    (e : CppProgram.run (·.del) (cs.map (CppRun.Call.op h LC LN cm bc n dt qom)) (CppProgram.start sl junk charges, st) = .ok ((sps, st'), os)) :
    ∃ ms, Runs (fun k E q => leap dt (qom k) (E q) (kin q)) (fun _ q => leap dt 0 none (kin q)) (fun x => dom (proj h x)) sl cs
        (charges.map (fun c => (c, []))) os ms ∧
      List.Forall₂ (fun sp l => sp.charged = l.1 ∧ CStores sp.sap l.2) sps ms ∧ ∀ l ∈ ms, ∀ q ∈ l.2, Present h M q :=
  program_moves (fold := id) (keep := fun x => dom (proj h x)) ht hLC hLN (fun k => (hb k).keepsCell)
    (fun k _ _ _ _ _ _ _ _ hq e => C75_particle hM hd rfl (hb k) hq e) h2 junk charges hbig hcr st e

end

/-- C108.  On every triangulation of a convex domain, with the arrays the compiled code makes of it, a program whose limit
on crossings is at least the number of cells a line can meet comes to its end, unless a source aborts it (C81), and moves the
particles in leapfrog steps. -/
theorem C108_triangulation {hg : g ≤ 3} {D : DMesh K g} (hT : Triangulation hg D) {nVerts : Nat} (hnum : Numbered D nVerts)
    {marker : Int → Int} (hb : ∀ c ∈ D.cells, ∀ F ∈ c.facets, (∀ c' ∈ D.cells, F ∈ c'.facets → c'.index = c.index) → marker F ≠ 0)
    {dom : Vec K g → Bool} (hdom : ConvexDomain hg D dom) {m n : Nat} (hm : AtMost hg D m) (hn : m ≤ n) (junk : Int) :
    ∃ M cm, buildMesh hg D junk marker = .ok M ∧ buildCpp D nVerts marker = .ok cm ∧
      ∀ {LC LN : Layout K g}, LC.Right → ∀ {cs : List (CppRun.Call K g ρ)}, ((∃ t, .neutral t ∈ cs) → LN.Right) →
      ∀ {bc : Nat → Int → τ → BCall K g g ρ → Except Err (τ × Part K g ρ)}, (∀ k, PlainBC M (bc k)) →
      ∀ {sl : Nat}, 2 ≤ sl → ∀ (part : Part K g ρ) (charges : List Bool), cs.length < 4294967296 →
        (∀ c ∈ cs, c.Creates (InSimplex D)) → (∀ c ∈ cs, c.Names charges.length) →
      ∀ (dt : K) (qom : Nat → K) (st : Side K g τ),
      ((∃ k q, .createSource k q ∈ cs) ∧
        CppProgram.run (·.del) (cs.map (CppRun.Call.op (le_refl g) LC LN cm bc n dt qom)) (CppProgram.start sl part charges, st) = .error .abort) ∨
      ∃ sps st' os ms,
        CppProgram.run (·.del) (cs.map (CppRun.Call.op (le_refl g) LC LN cm bc n dt qom)) (CppProgram.start sl part charges, st) =
          .ok ((sps, st'), os) ∧
        Runs (fun k E q => leap dt (qom k) (E q) (kin q)) (fun _ q => leap dt 0 none (kin q)) dom sl cs
          (charges.map (fun c => (c, []))) os ms ∧
        List.Forall₂ (fun sp l => sp.charged = l.1 ∧ CStores sp.sap l.2) sps ms ∧ ∀ l ∈ ms, ∀ q ∈ l.2, InSimplex D q := by
  obtain ⟨M, cm, e1, e2, ht⟩ := C107_same_mesh hT hnum junk marker
  obtain ⟨M', e1', -, hM⟩ := C88_conforming hT junk hb
  rw [e1] at e1'
  cases e1'
  refine ⟨M, cm, e1, e2, fun {LC LN} hLC {cs} hLN {bc} hbc {sl} h2 part charges hbig hcr hnm dt qom st => ?_⟩
  have hcr' : ∀ c ∈ cs, c.Creates (Present (le_refl g) M) := by
    intro c hc
    have := hcr c hc
    cases c with
    | createList k q => exact (present_built hT e1).2 this
    | createSource k q => exact (present_built hT e1).2 this
    | _ => trivial
  have hd := convex_built hT e1 hdom
  rcases program_succeeds (fold := id) (keep := fun x => dom (proj (le_refl g) x)) (qom := qom) ht hLC hLN (fun k => (hbc k).keepsCell)
    (fun k _ _ _ _ _ _ _ _ hq e => C75_particle hM hd rfl (hbc k) hq e)
    (fun k t c E st q hq => (never_too_many hT e1 hM hm hn (v := .charged) rfl (hbc k).good (hbc k).absorbs t dt (c * dt) false E st hq.1).1)
    h2 part charges hbig hcr' hnm st with ⟨⟨⟨sps, st'⟩, os⟩, e⟩ | h
  · right
    obtain ⟨ms, r1, r2, r3⟩ := C108_convex hM hd ht hLC hLN hbc h2 part charges hbig hcr' st e
    exact ⟨sps, st', os, ms, e, r1, r2, fun l hl q hq => (present_built hT e1).1 (r3 l hl q hq)⟩
  · exact .inl h

/-- C108.  The spherical programs: on an interval whose inner end reflects and whose outer end deletes, with a limit on crossings
of at least twice the number of cells, a program comes to its end, unless a source aborts it (C81); particles that
a leapfrog step takes to the other side of the inner end are folded back, those beyond the outer end are dropped. -/
theorem C108_sphere {x : Nat → K} {N : Nat} {marker : Int → Int} (hM : (lineMesh x N marker).Conforming)
    (hx : ∀ i, i < N → x i < x (i + 1)) {LC LN : Layout K 1} (hLC : LC.Right) {cs : List (CppRun.Call K 1 ρ)}
    (hLN : (∃ t, .neutral t ∈ cs) → LN.Right)
    {bc : Nat → Int → τ → BCall K 1 1 ρ → Except Err (τ × Part K 1 ρ)} (hb : ∀ k, WallBC marker N true false (bc k))
    (hc : ∀ k, KeepsCell (bc k)) {n : Nat} (hn : 2 * N ≤ n) {sl : Nat} (h2 : 2 ≤ sl) (junk : Part K 1 ρ) (charges : List Bool)
    (hbig : cs.length < 4294967296) (hcr : ∀ c ∈ cs, c.Creates (Present (le_refl 1) (lineMesh x N marker)))
    (hnm : ∀ c ∈ cs, c.Names charges.length) (dt : K) (qom : Nat → K) (st : Side K 1 τ) :
    ((∃ k q, .createSource k q ∈ cs) ∧
      CppProgram.run (·.del) (cs.map (CppRun.Call.op (le_refl 1) LC LN (lineCpp x N marker) bc n dt qom)) (CppProgram.start sl junk charges, st) =
        .error .abort) ∨
    ∃ sps st' os ms,
      CppProgram.run (·.del) (cs.map (CppRun.Call.op (le_refl 1) LC LN (lineCpp x N marker) bc n dt qom)) (CppProgram.start sl junk charges, st) =
        .ok ((sps, st'), os) ∧
      Runs (fun k E q => folded (x 0) (leap dt (qom k) (E q) (kin q))) (fun _ q => folded (x 0) (leap dt 0 none (kin q)))
        (fun y => decide (y 0 ≤ x N)) sl cs (charges.map (fun c => (c, []))) os ms ∧
      List.Forall₂ (fun sp l => sp.charged = l.1 ∧ CStores sp.sap l.2) sps ms ∧
      ∀ l ∈ ms, ∀ q ∈ l.2, Present (le_refl 1) (lineMesh x N marker) q := by
  have ht := C66_interval_mesh (marker := marker) hx
  rcases program_succeeds (fold := folded (x 0)) (keep := fun y => decide (y 0 ≤ x N)) (qom := qom) ht hLC hLN hc
    (fun k _ _ _ _ _ _ _ _ hq e => C76_folded hM rfl rfl (hb k) hq e)
    (fun k t c E st q hq => C76_no_error hM rfl rfl (hb k) hn t dt (c * dt) E st hq)
    h2 junk charges hbig hcr hnm st with ⟨⟨⟨sps, st'⟩, os⟩, e⟩ | h
  · right
    obtain ⟨ms, r1, r2, r3⟩ := program_moves (fold := folded (x 0)) (keep := fun y => decide (y 0 ≤ x N)) ht hLC hLN hc
      (fun k _ _ _ _ _ _ _ _ hq e => C76_folded hM rfl rfl (hb k) hq e) h2 junk charges hbig hcr st e
    exact ⟨sps, st', os, ms, e, r1, r2, r3⟩
  · exact .inl h

/-! ### The hypotheses are met -/

/-- An ion that goes to the mirror, an electron that leaves, a slow neutral and a late electron. -/
def sphereCalls : List (CppRun.Call ℚ 1 Nat) :=
  [.createList 0 (demoPart (1 / 2) (-3 / 2) 0 false), .createList 0 (demoPart (3 / 2) 9 1 false),
   .createList 1 (demoPart (5 / 2) (-1 / 4) 2 false), .charged 0 (fun _ _ => some ![1 / 2]), .look 0,
   .createList 0 (demoPart 2 1 1 false), .neutral 0, .charged 1 (fun _ _ => some ![1 / 2]), .look 0, .look 1]

/-- Positions and velocities in what a program sees. -/
def seenXU (o : Obs (Part ℚ 1 Nat)) : List (ℚ × ℚ) := match o with
  | .items xs => xs.map (fun q => (q.x 0, q.u 0))
  | .created _ _ q => [(q.x 0, q.u 0)]

example : (CppProgram.run (·.del) (sphereCalls.map (CppRun.Call.op (le_refl 1) layoutX layoutX demoLineCpp (fun _ => wallBC) 6 1 (fun _ => 1)))
      (CppProgram.start 2 (demoPart 0 0 0 false) [true, false], (((), ![0]), fun _ => 99))).toOption.map (fun r => r.2.map seenXU) =
    some [[(1 / 2, -3 / 2)], [(3 / 2, 9)], [(5 / 2, -1 / 4)], [(1 / 2, 1)], [(2, 1)], [(2, 3 / 2)], [(9 / 4, -1 / 4)]] := by decide +kernel

theorem sphereCalls_create : ∀ c ∈ sphereCalls, c.Creates (Present (le_refl 1) demoLine) := by
  simp only [sphereCalls, List.mem_cons, List.not_mem_nil, or_false, forall_eq_or_imp, forall_eq, CppRun.Call.Creates, and_true, true_and]
  refine ⟨⟨?_, rfl⟩, ⟨?_, rfl⟩, ⟨?_, rfl⟩, ⟨?_, rfl⟩⟩ <;> unfold InItsCell <;> decide +kernel

-- For every field, every time step and every charge-to-mass ratio.
example (dt : ℚ) (qom : Nat → ℚ) : ∃ sps st' os ms,
    CppProgram.run (·.del) (sphereCalls.map (CppRun.Call.op (le_refl 1) layoutX layoutX demoLineCpp (fun _ => wallBC) 6 dt qom))
      (CppProgram.start 2 (demoPart 0 0 0 false) [true, false], (((), ![0]), fun _ => 99)) = .ok ((sps, st'), os) ∧
    Runs (fun k E q => folded 0 (leap dt (qom k) (E q) (kin q))) (fun _ q => folded 0 (leap dt 0 none (kin q)))
      (fun y => decide (y 0 ≤ 3)) 2 sphereCalls [(true, []), (false, [])] os ms := by
  rcases C108_sphere (x := fun i => (i : ℚ)) (N := 3) demoLine_conforming (fun i _ => by push_cast; linarith)
      (LC := layoutX) (LN := layoutX) C66_layouts.1 (cs := sphereCalls) (fun _ => C66_layouts.1)
      (bc := fun _ => wallBC) (fun _ => wallBC_wall) (fun _ => wallBC_keepsCell) (n := 6) (by decide) (sl := 2) (le_refl 2)
      (demoPart 0 0 0 false) [true, false] (by decide) sphereCalls_create (by simp [sphereCalls, CppRun.Call.Names])
      dt qom (((), ![0]), fun _ => 99) with ⟨⟨k, q, hm⟩, -⟩ | ⟨sps, st', os, ms, h1, h2, -⟩
  · simp [sphereCalls] at hm
  · exact ⟨sps, st', os, ms, h1, by simpa using h2⟩

/-- Two electrons in the two triangles, in a field along the first coordinate. -/
def kiteCalls (e : Vec ℚ 2) : List (CppRun.Call ℚ 2 Nat) :=
  [.createSource 0 ⟨![1, 1 / 2], ![1, 1 / 2], ![-1 / 2, 1 / 8], 0, false, false, 0, 7⟩,
   .createList 0 ⟨![1, 1 / 2], ![1, 1 / 2], ![0, -1], 0, false, false, 0, 8⟩,
   .charged 0 (fun _ _ => some e), .look 0, .charged 1 (fun _ _ => some e), .look 0]

theorem kite_numbered : Numbered (kite false) 4 := by constructor <;> decide

-- For every field; there is no neutral species, so it does not matter that the layout of the neutral mover is wrong.
example (e : Vec ℚ 2) : ∃ M cm, buildMesh (by decide) (kite false) 0 (fun F => if F = 1 then 0 else 1) = .ok M ∧
    buildCpp (kite false) 4 (fun F => if F = 1 then 0 else 1) = .ok cm ∧
    (CppProgram.run (·.del) ((kiteCalls e).map (CppRun.Call.op (le_refl 2) layoutXY layoutNeutralXY cm (fun _ => kiteSink) 2 (1 / 2) (fun _ => -1)))
        (CppProgram.start 2 ⟨0, 0, 0, 0, false, false, 0, 0⟩ [true], (((), 0), fun _ => 99)) = .error .abort ∨
      ∃ sps st' os ms,
      CppProgram.run (·.del) ((kiteCalls e).map (CppRun.Call.op (le_refl 2) layoutXY layoutNeutralXY cm (fun _ => kiteSink) 2 (1 / 2) (fun _ => -1)))
        (CppProgram.start 2 ⟨0, 0, 0, 0, false, false, 0, 0⟩ [true], (((), 0), fun _ => 99)) = .ok ((sps, st'), os) ∧
      Runs (fun _ E q => leap (1 / 2) (-1) (E q) (kin q)) (fun _ q => leap (1 / 2) 0 none (kin q)) kiteDom 2 (kiteCalls e) [(true, [])] os ms) := by
  obtain ⟨M, cm, e1, e2, key⟩ := C108_triangulation (τ := Unit) (ρ := Nat) kite_triangulation kite_numbered
    (marker := fun F => if F = 1 then 0 else 1) (by decide) kite_convex (C102_plane kite_triangulation) (n := 2) (by decide) 0
  refine ⟨M, cm, e1, e2, ?_⟩
  have hull : InHull (corner (kite false) ((kiteCells false)[0])) (![1, 1 / 2] : Vec ℚ 2) := ⟨![1 / 4, 1 / 2, 1 / 4], by decide +kernel⟩
  rcases key (LC := layoutXY) (LN := layoutNeutralXY) C66_layouts.2.1 (cs := kiteCalls e) (by simp [kiteCalls])
      (bc := fun _ => kiteSink) (fun _ => kite_sink M (kite_interior e1)) (sl := 2) (le_refl 2) ⟨0, 0, 0, 0, false, false, 0, 0⟩ [true]
      (by simp [kiteCalls]) (by
        simp only [kiteCalls, List.mem_cons, List.not_mem_nil, or_false, forall_eq_or_imp, forall_eq, CppRun.Call.Creates, and_true]
        exact ⟨⟨⟨(kiteCells false)[0], by simp [kite], rfl, hull⟩, rfl⟩, ⟨⟨(kiteCells false)[0], by simp [kite], rfl, hull⟩, rfl⟩⟩)
      (by simp [kiteCalls, CppRun.Call.Names]) (1 / 2) (fun _ => -1) (((), 0), fun _ => 99) with ⟨-, h⟩ | ⟨sps, st', os, ms, h1, h2, -⟩
  · exact .inl h
  · exact .inr ⟨sps, st', os, ms, h1, by simpa using h2⟩

end Dt
