import Verif.Model.RoundedClock
import Verif.Props.RoundError
import Verif.Props.TimeLoop

/-!
# The clock of a simulation with rounding (C137)
-/

set_option linter.unusedSectionVars false

namespace Dt
open TimeLoop Spec
variable {K V α σ φ : Type} [Field K] [LinearOrder K] [IsStrictOrderedRing K]

namespace RoundedClock

theorem particles_clock {cfg : Cfg K V α σ φ} {s s' : State K V α σ φ} (e : particles cfg s = .ok s') :
    s'.count = s.count ∧ s'.time = s.time ∧ s'.phiLog = s.phiLog := by
  unfold particles at e
  simp only [bind, Except.bind] at e
  repeat' split at e
  all_goals cases e
  exact ⟨rfl, rfl, rfl⟩

theorem writeDue_clock {cfg : Cfg K V α σ φ} {s s' : State K V α σ φ} (e : writeDue cfg s = .ok s') :
    s'.count = s.count ∧ s'.time = s.time ∧ s'.phiLog = s.phiLog := by
  unfold writeDue writeFile at e
  simp only [bind, Except.bind] at e
  repeat' split at e
  all_goals cases e
  all_goals exact ⟨rfl, rfl, rfl⟩

theorem densities_clock {cfg : Cfg K V α σ φ} {o : Option Int} {s s' : State K V α σ φ} (e : densities cfg o s = .ok s') :
    s'.count = s.count ∧ s'.time = s.time ∧ s'.phiLog = s.phiLog := by
  unfold densities at e
  simp only [bind, Except.bind] at e
  repeat' split at e
  all_goals cases e
  exact ⟨rfl, rfl, rfl⟩

theorem solveDue_clock {cfg : Cfg K V α σ φ} {s s' : State K V α σ φ} (e : solveDue cfg s = .ok s') :
    s'.count = s.count ∧ s'.time = s.time ∧ (s'.phiLog = s.phiLog ∨ ∃ v, s'.phiLog = s.phiLog ++ [(s.time, v)]) := by
  unfold solveDue writePhi solveField at e
  simp only [bind, Except.bind] at e
  repeat' split at e
  all_goals cases e
  · exact ⟨rfl, rfl, .inr ⟨_, rfl⟩⟩
  · exact ⟨rfl, rfl, .inl rfl⟩

theorem histDue_clock {cfg : Cfg K V α σ φ} {s s' : State K V α σ φ} (e : histDue cfg s = .ok s') :
    s'.count = s.count ∧ s'.time = s.time ∧ s'.phiLog = s.phiLog := by
  unfold histDue recordHist at e
  simp only [bind, Except.bind] at e
  repeat' split at e
  all_goals cases e
  all_goals exact ⟨rfl, rfl, rfl⟩

theorem step_clock {fl : K → K} {cfg : Cfg K V α σ φ} {s s' : State K V α σ φ} (e : stepRounded fl cfg s = .ok s') :
    s'.count = s.count + 1 ∧ s'.time = fl (s.time + cfg.dt) ∧
      (s'.phiLog = s.phiLog ∨ ∃ v, s'.phiLog = s.phiLog ++ [(s'.time, v)]) := by
  unfold stepRounded at e
  simp only [bind, Except.bind] at e
  split at e
  · cases e
  split at e
  · cases e
  split at e
  · cases e
  split at e
  · cases e
  rename_i _ _ h1 _ _ h2 _ _ h3 _ _ h4
  obtain ⟨a1, a2, a3⟩ := particles_clock h1
  obtain ⟨b1, b2, b3⟩ := writeDue_clock h2
  obtain ⟨c1, c2, c3⟩ := densities_clock h3
  obtain ⟨d1, d2, d3⟩ := solveDue_clock h4
  obtain ⟨f1, f2, f3⟩ := histDue_clock e
  refine ⟨by rw [f1, d1, c1, b1, a1], by rw [f2, d2, c2, b2, a2], ?_⟩
  rw [f3, f2, d2]
  rw [c3, b3, a3] at d3
  exact d3

end RoundedClock

open RoundedClock

/-- **C137 (size).** A simulation runs `N` steps with a clock that is rounded with an error of at most `η`.  The step counter has grown by
exactly `N`, and the clock differs from `N` times the time step by at most `N η`.  The range of the numbers is a condition on the exact
times only. -/
theorem C137_clock {fl : K → K} {R η : K} (hfl : ErrorAtMost fl R η) {cfg : Cfg K V α σ φ} (N : Nat) {s s' : State K V α σ φ}
    (hR : ∀ k < N, |s.time + (k + 1 : Nat) * cfg.dt| + k * η ≤ R) (e : stepsRounded fl cfg N s = .ok s') :
    s'.count = s.count + N ∧ |s'.time - (s.time + N * cfg.dt)| ≤ N * η := by
  suffices H : ∀ (n m : Nat) (t t' : State K V α σ φ), m + n = N → t.count = s.count + m → |t.time - (s.time + m * cfg.dt)| ≤ m * η →
      stepsRounded fl cfg n t = .ok t' → t'.count = s.count + N ∧ |t'.time - (s.time + N * cfg.dt)| ≤ N * η from
    H N 0 s s' (by omega) (by simp) (by simp) e
  intro n
  induction n with
  | zero =>
    intro m t t' hm hc ht e
    cases e
    obtain rfl : m = N := by omega
    exact ⟨hc, ht⟩
  | succ n ih =>
    intro m t t' hm hc ht e
    unfold stepsRounded at e
    simp only [bind, Except.bind] at e
    split at e
    · cases e
    rename_i t1 h1
    obtain ⟨a1, a2, -⟩ := step_clock h1
    refine ih (m + 1) t1 t' (by omega) (by rw [a1, hc]; push_cast; ring) ?_ e
    have hr := hR m (by omega)
    push_cast at hr ⊢
    have hs : t.time + cfg.dt = (s.time + (m + 1) * cfg.dt) + (t.time - (s.time + m * cfg.dt)) := by ring
    have hb : |t.time + cfg.dt| ≤ R := by
      rw [hs]
      exact (abs_add_le _ _).trans (by linarith)
    have hf := hfl _ hb
    rw [a2]
    have : fl (t.time + cfg.dt) - (s.time + (m + 1) * cfg.dt) = (fl (t.time + cfg.dt) - (t.time + cfg.dt)) + (t.time - (s.time + m * cfg.dt)) := by ring
    rw [this]
    exact (abs_add_le _ _).trans (by linarith)

/-- **C137 (order).** If the clock starts at a machine number, the time step is not negative and rounding is monotone, the clock never goes
back, and the times in the file of the potential stay in order. -/
theorem C137_order {fl : K → K} (hm : ∀ a b, a ≤ b → fl a ≤ fl b) (hi : ∀ a, fl (fl a) = fl a) {cfg : Cfg K V α σ φ} (hdt : 0 ≤ cfg.dt) (N : Nat)
    {s s' : State K V α σ φ} (hs : fl s.time = s.time) (hl : (s.phiLog.map (·.1)).Pairwise (· ≤ ·)) (hb : ∀ x ∈ s.phiLog, x.1 ≤ s.time)
    (e : stepsRounded fl cfg N s = .ok s') :
    s.time ≤ s'.time ∧ (s'.phiLog.map (·.1)).Pairwise (· ≤ ·) ∧ ∀ x ∈ s'.phiLog, x.1 ≤ s'.time := by
  induction N generalizing s with
  | zero => cases e; exact ⟨le_rfl, hl, hb⟩
  | succ n ih =>
    unfold stepsRounded at e
    simp only [bind, Except.bind] at e
    split at e
    · cases e
    rename_i t h1
    obtain ⟨-, a2, a3⟩ := step_clock h1
    have hle : s.time ≤ t.time := by
      rw [a2]
      calc s.time = fl s.time := hs.symm
        _ ≤ _ := hm _ _ (by linarith)
    have hb' : ∀ x ∈ t.phiLog, x.1 ≤ t.time := by
      intro x hx
      rcases a3 with a3 | ⟨v, a3⟩
      · exact (hb x (a3 ▸ hx)).trans hle
      · rw [a3, List.mem_append, List.mem_singleton] at hx
        rcases hx with hx | rfl
        · exact (hb x hx).trans hle
        · exact le_rfl
    have hl' : (t.phiLog.map (·.1)).Pairwise (· ≤ ·) := by
      rcases a3 with a3 | ⟨v, a3⟩
      · rw [a3]; exact hl
      · rw [a3, List.map_append, List.pairwise_append]
        refine ⟨hl, by simp, ?_⟩
        intro a ha b hb2
        simp only [List.map_cons, List.map_nil, List.mem_singleton] at hb2
        obtain ⟨x, hx, rfl⟩ := List.mem_map.1 ha
        rw [hb2]
        exact (hb x hx).trans hle
    obtain ⟨i1, i2, i3⟩ := ih (by rw [a2, hi]) hl' hb' e
    exact ⟨hle.trans i1, i2, i3⟩

/-- **C137 (exact).** Without rounding this is the time loop of C68. -/
theorem C137_exact (cfg : Cfg K V α σ φ) (N : Nat) (s : State K V α σ φ) : stepsRounded id cfg N s = TimeLoop.steps cfg N s := by
  induction N generalizing s with
  | zero => rfl
  | succ n ih =>
    unfold stepsRounded TimeLoop.steps
    have : stepRounded id cfg s = TimeLoop.step cfg s := rfl
    rw [this]
    congr 1
    funext t
    exact ih t

/-- C137.  Once the time step is lost in rounding, the clock stands still, however long the simulation runs. -/
theorem C137_stuck {fl : K → K} {cfg : Cfg K V α σ φ} (N : Nat) {s s' : State K V α σ φ} (h : fl (s.time + cfg.dt) = s.time)
    (e : stepsRounded fl cfg N s = .ok s') : s'.time = s.time ∧ s'.count = s.count + N := by
  induction N generalizing s with
  | zero => cases e; simp
  | succ n ih =>
    unfold stepsRounded at e
    simp only [bind, Except.bind] at e
    split at e
    · cases e
    rename_i t h1
    obtain ⟨a1, a2, -⟩ := step_clock h1
    rw [h] at a2
    obtain ⟨i1, i2⟩ := ih (by rw [a2, h]) e
    exact ⟨i1.trans a2, by rw [i2, a1]; push_cast; ring⟩

/-! ### Concrete cases -/

section
open Fld (Dep)

abbrev clockRun (dt : ℚ) (n : Nat) : Except Err (State ℚ ℚ Dep Nat ℚ) :=
  stepsRounded nearest { loopCfg [] with dt := dt } n { loopState n loopSps with hist := none }

/-- C137 fails if it is read as "the clock shows how many steps have been made": the program runs with a positive time step, the steps are
counted and the potential is written at every step, but the clock stands still and all times in the file are the same. -/
theorem C137_false_stands_still : (clockRun (1 / 16) 3).toOption.map (fun s => (s.count, s.time, s.phiLog.map (·.1))) = some (3, 0, [0, 0, 0]) := by
  decide +kernel

-- With another time step the clock advances, too fast.
example : (clockRun (3 / 16) 3).toOption.map (fun s => (s.count, s.time, s.phiLog.map (·.1))) = some (3, 3 / 4, [1 / 4, 1 / 2, 3 / 4]) := by
  decide +kernel

example : ∃ s, clockRun (3 / 16) 3 = .ok s ∧ |s.time - (0 + 3 * (3 / 16))| ≤ 3 * (1 / 8) ∧ (s.phiLog.map (·.1)).Pairwise (· ≤ ·) := by
  have o : (clockRun (3 / 16) 3).toOption.isSome = true := by decide +kernel
  cases e : clockRun (3 / 16) 3 with
  | error x => rw [e] at o; cases o
  | ok s =>
    refine ⟨s, rfl, ?_, ?_⟩
    · have := (C137_clock nearest_error 3 (fun k hk => by interval_cases k <;> norm_num [loopState, abs_le]) e).2
      simpa [loopState] using this
    · exact (C137_order coarse_rounding.mono nearest_idem (by norm_num) 3 (by decide +kernel) (by simp [loopState]) (by simp [loopState]) e).2.1

end

end Dt
