import Verif.Lemmas.MoverPost

/-! # A pass stays inside the reachable container states -/

namespace Dt
namespace Mover
open SAP
variable {σ α : Type}

theorem nextOut_reach {ps ps' : Pass σ α} (h : Reachable ps.s) (e : nextOut ps = .ok ps') :
    Reachable ps'.s := by
  unfold nextOut at e
  split at e
  · cases hg : ps.s.getNextOutSegment with
    | error _ => rw [hg] at e; cases e
    | ok r =>
      obtain ⟨s', v⟩ := r
      rw [hg] at e
      simp only [bind, Except.bind, pure, Except.pure, Except.ok.injEq] at e
      subst e
      exact h.nextOut hg
  · cases e; exact h

theorem count_setNumber (s : SAP α) (n : Int) :
    (s.setNumberOfItems .Out n).getNumberOfItems = n := by
  unfold setNumberOfItems getNumberOfItems pyDivmod sel
  simp only [outA_setArr_out, setArr_sl]
  have h1 := Int.mul_fdiv_add_fmod (n - 1) s.sl
  rw [Int.mul_comm]
  omega

theorem countFull_s (ps : Pass σ α) : (countFull ps).s = ps.s := by
  unfold countFull; split <;> rfl

theorem moveOne_reach {adv : Adv σ α} {vin : View} {ip : Nat} {ps ps' : Pass σ α}
    (h : Reachable ps.s) (e : moveOne adv vin ip ps = .ok ps') : Reachable ps'.s := by
  unfold moveOne at e
  cases h1 : nextOut ps with
  | error _ => rw [h1] at e; cases e
  | ok ps1 =>
    have hr := nextOut_reach h h1
    rw [h1] at e
    simp only [bind, Except.bind] at e
    cases h2 : ps1.s.viewGet vin ip with
    | error _ => rw [h2] at e; cases e
    | ok p =>
      rw [h2] at e
      simp only [] at e
      cases h3 : adv ps1.st (ps1.s.getFullIndices ip ps1.ipOut).1
          (ps1.s.getFullIndices ip ps1.ipOut).2 ps1.indexChange p with
      | error _ => rw [h3] at e; cases e
      | ok r =>
        obtain ⟨st', p', keep⟩ := r
        rw [h3] at e
        simp only [] at e
        cases h4 : ps1.s.viewSet ps1.vout ps1.ipOut p' with
        | error _ => rw [h4] at e; cases e
        | ok s' =>
          rw [h4] at e
          have hr' := hr.viewSet h4
          cases keep <;>
          · simp only [pure, Except.pure, if_true, Bool.false_eq_true, if_false,
              Except.ok.injEq] at e
            subst e
            rw [countFull_s]
            exact hr'

theorem moveItems_reach {adv : Adv σ α} {vin : View} (k : Nat) : ∀ {ip : Nat} {ps ps' : Pass σ α},
    Reachable ps.s → moveItems adv vin k ip ps = .ok ps' → Reachable ps'.s := by
  induction k with
  | zero => intro ip ps ps' h e; simp only [moveItems, Except.ok.injEq] at e; subst e; exact h
  | succ k ih =>
    intro ip ps ps' h e
    unfold moveItems at e
    cases h1 : moveOne adv vin ip ps with
    | error _ => rw [h1] at e; cases e
    | ok ps1 =>
      rw [h1] at e
      exact ih (moveOne_reach h h1) e

theorem moveSegs_reach {adv : Adv σ α} (fuel : Nat) : ∀ {n : Int} {v : Option View}
    {ps ps' : Pass σ α}, Reachable ps.s → moveSegs adv fuel n v ps = .ok ps' → Reachable ps'.s := by
  induction fuel with
  | zero =>
    intro n v ps ps' h e
    cases v with
    | none => simp only [moveSegs, Except.ok.injEq] at e; subst e; exact h
    | some v => simp [moveSegs] at e
  | succ k ih =>
    intro n v ps ps' h e
    cases v with
    | none => simp only [moveSegs, Except.ok.injEq] at e; subst e; exact h
    | some v =>
      simp only [moveSegs] at e
      cases h1 : moveItems adv v n.toNat 0 ps with
      | error _ => rw [h1] at e; cases e
      | ok ps1 =>
        rw [h1] at e
        exact ih ((moveItems_reach _ h h1).next .In) e

/-- After a pass with survivors the container is again in a reachable state. -/
theorem meshPass_reach {adv : Adv σ α} {s s' : SAP α} {st st' : σ} (h : Reachable s)
    (hne : s.contents ≠ []) (e : meshPass adv s st = .ok (s', st'))
    (hcount : s'.getNumberOfItems ≠ 0) : Reachable s' := by
  have hi := reachable_inv h
  have key := meshPass_ok adv hi hne st
  cases hp : Spec.pass adv st 0 0 s.contents with
  | error _ => rw [hp] at key; simp only [] at key; rw [key] at e; cases e
  | ok r =>
    obtain ⟨st1, ys⟩ := r
    rw [hp] at key
    obtain ⟨t, q, e1, hti, hsl, -, -, -, -, -, -, -, -, hcap, -⟩ := key
    obtain ⟨s1, e2, -⟩ := initInoutLoop_nonempty hi hne
    have hr1 : Reachable s1 := by
      have := h.initInout
      rw [e2] at this
      exact this
    have hye := e
    unfold meshPass at e
    rw [e2] at e
    simp only [] at e
    cases h1 : moveSegs adv (s.outA.nseg + 1) (firstCount s.sl s.outA) (some ⟨s1.inSel, 0⟩)
        { s := s1, vout := ⟨s1.outSel, 0⟩, ipOut := 0, count := 0, indexChange := false, st := st } with
    | error _ => rw [h1] at e; cases e
    | ok ps =>
      have hr2 := moveSegs_reach _ (ps := { s := s1, vout := ⟨s1.outSel, 0⟩, ipOut := 0, count := 0, indexChange := false, st := st }) hr1 h1
      rw [h1] at e
      simp only [bind, Except.bind, pure, Except.pure, Except.ok.injEq, Prod.mk.injEq] at e
      obtain ⟨e3, e4⟩ := e
      rw [e1] at hye
      simp only [Except.ok.injEq, Prod.mk.injEq] at hye
      obtain ⟨e5, e6⟩ := hye
      have hri := reachable_inv hr2
      have hn := (setNumber_in hri ((if ps.ipOut ≠ ps.s.sl then ps.count + ps.ipOut else ps.count : Nat) : Int))
      have hnt := (setNumber_in hti (ys.length : Int))
      rw [e3] at hn
      rw [e5] at hnt
      obtain ⟨-, -, -, g4, -, -, g7⟩ := hn
      obtain ⟨-, -, -, k4, -, -, k7⟩ := hnt
      have hc1 : s'.getNumberOfItems = (if ps.ipOut ≠ ps.s.sl then ps.count + ps.ipOut else ps.count : Nat) := by
        rw [← e3]; exact count_setNumber _ _
      have hc2 : s'.getNumberOfItems = ys.length := by
        rw [← e5]; exact count_setNumber _ _
      rw [← e3]
      refine hr2.setNumber .Out _ (by omega) ?_
      have : (if ps.ipOut ≠ ps.s.sl then ps.count + ps.ipOut else ps.count : Nat) = ys.length := by
        omega
      rw [this]
      show ys.length ≤ ps.s.outA.nseg * ps.s.sl
      rw [← g7, ← g4, k7, k4, hsl]
      exact hcap

end Mover
end Dt
