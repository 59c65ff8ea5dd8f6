import Verif.Spec.RoundError
import Verif.Props.Rounded

/-!
# Rounding errors of positions and velocities grow slowly (C136)
-/

set_option linter.unusedSectionVars false

namespace Dt
open Spec
variable {K : Type} [Field K] [LinearOrder K] [IsStrictOrderedRing K] {g p : Nat} {τ ρ : Type}

namespace RoundError

/-! ### Tracking changes neither position nor velocity -/

theorem marked_keeps {v : Variant} {bc : Int → τ → BCall K g p ρ → Except Err (τ × Part K p ρ)} (hbc : KeepsMotion bc) {value : Int} {f : K}
    {n : Option (Vec K g)} {mf : Int} {s s' : Trk K p τ ρ} (e : atMarked v bc value f n mf s = .ok s') :
    s'.part.x = s.part.x ∧ s'.part.u = s.part.u := by
  unfold atMarked at e
  cases h : crossEvents v s with
  | error x => rw [h] at e; cases e
  | ok evs =>
    rw [h] at e
    cases h2 : bc value s.st ⟨s.part, mf, f, n, s.dxS⟩ with
    | error x => simp only [bind, Except.bind, h2] at e; cases e
    | ok r =>
      simp only [bind, Except.bind, h2] at e
      cases e
      exact hbc _ _ _ _ h2

theorem next_keeps {c : Cell K g} {k : Int} {s s' : Trk K p τ ρ} {brk : Bool} (e : nextCell c k s = .ok (s', brk)) :
    s'.part.x = s.part.x ∧ s'.part.u = s.part.u := by
  unfold nextCell at e
  cases h : pyGet c.neighbors k with
  | error x => rw [h] at e; cases e
  | ok new =>
    rw [h] at e
    simp only [bind, Except.bind, pure, Except.pure] at e
    split at e
    · split at e <;> (cases e; exact ⟨rfl, rfl⟩)
    · cases e; exact ⟨rfl, rfl⟩

theorem cross_keeps {A : Arith K g} {h : g ≤ p} {M : Mesh K g} {v : Variant} {bc : Int → τ → BCall K g p ρ → Except Err (τ × Part K p ρ)}
    (hbc : KeepsMotion bc) {s s' : Trk K p τ ρ} {brk : Bool} (e : Rounded.crossOnce A h M v bc s = .ok (s', brk)) :
    s'.part.x = s.part.x ∧ s'.part.u = s.part.u := by
  unfold Rounded.crossOnce at e
  simp only [bind, Except.bind] at e
  repeat' split at e
  all_goals try (cases e)
  · rename_i h1
    have a := marked_keeps hbc h1
    have b := next_keeps e
    exact ⟨b.1.trans a.1, b.2.trans a.2⟩
  all_goals
    have b := next_keeps e
    exact ⟨b.1, b.2⟩

theorem track_keeps {A : Arith K g} {h : g ≤ p} {M : Mesh K g} {v : Variant} {bc : Int → τ → BCall K g p ρ → Except Err (τ × Part K p ρ)}
    (hbc : KeepsMotion bc) {n : Nat} {s s' : Trk K p τ ρ} (e : Rounded.track A h M v bc n s = .ok s') :
    s'.part.x = s.part.x ∧ s'.part.u = s.part.u :=
  Rounded.track_rule (P := fun t => t.part.x = s.part.x ∧ t.part.u = s.part.u) (Q := fun t => t.part.x = s.part.x ∧ t.part.u = s.part.u)
    (fun _ _ hp _ e => ⟨(cross_keeps hbc e).1.trans hp.1, (cross_keeps hbc e).2.trans hp.2⟩)
    (fun _ _ hp _ e => ⟨(cross_keeps hbc e).1.trans hp.1, (cross_keeps hbc e).2.trans hp.2⟩)
    (fun _ hp _ => hp) n s s' ⟨rfl, rfl⟩ e

theorem charged_keeps {A : Arith K g} {h : g ≤ p} {M : Mesh K g} {v : Variant} {bc : Int → τ → BCall K g p ρ → Except Err (τ × Part K p ρ)}
    (hbc : KeepsMotion bc) {n : Nat} {time dt qmdt : K} {E : Part K p ρ → Option (Vec K p)} {st st' : τ × Vec K p} {q q' : Part K p ρ}
    {evs : List (Part K p ρ × K)} {e : Vec K p} (hE : E q = some e)
    (h1 : Rounded.moveCharged A h M v bc n time dt qmdt false E st q = .ok (st', q', evs)) :
    (∀ i, q'.u i = A.fl (q.u i + A.fl (qmdt * e i))) ∧ ∀ i, q'.x i = A.fl (q.x i + A.fl (q'.u i * dt)) := by
  unfold Rounded.moveCharged at h1
  simp only [Bool.false_eq_true, if_false, hE, Rounded.accelerate] at h1
  cases ht : Rounded.track A h M v bc n (Rounded.startTrk A time dt st.1 st.2
      (Rounded.moveBy A dt { q with u := fun i => A.fl (q.u i + A.fl (qmdt * e i)) })) with
  | error x => rw [ht] at h1; cases h1
  | ok s =>
    rw [ht] at h1
    cases h1
    obtain ⟨a, b⟩ := track_keeps hbc ht
    simp only [Rounded.startTrk, Rounded.moveBy] at a b
    exact ⟨fun i => by simp only [b], fun i => by simp only [a, b]⟩

theorem neutral_keeps {A : Arith K g} {h : g ≤ p} {M : Mesh K g} {v : Variant} {bc : Int → τ → BCall K g p ρ → Except Err (τ × Part K p ρ)}
    (hbc : KeepsMotion bc) {n : Nat} {time dt : K} {st st' : τ × Vec K p} {q q' : Part K p ρ}
    {evs : List (Part K p ρ × K)} (h1 : Rounded.moveNeutral A h M v bc n time dt st q = .ok (st', q', evs)) :
    q'.u = q.u ∧ ∀ i, q'.x i = A.fl (q.x i + A.fl (q.u i * dt)) := by
  unfold Rounded.moveNeutral at h1
  cases ht : Rounded.track A h M v bc n (Rounded.startTrk A time dt st.1 st.2 (Rounded.moveBy A dt q)) with
  | error x => rw [ht] at h1; cases h1
  | ok s =>
    rw [ht] at h1
    cases h1
    obtain ⟨a, b⟩ := track_keeps hbc ht
    simp only [Rounded.startTrk, Rounded.moveBy] at a b
    exact ⟨b, fun i => by simp only [a]⟩

/-- Two operations, each rounded. -/
theorem two_errors {fl : K → K} {R η : K} (hfl : ErrorAtMost fl R η) {a b : K} (h1 : |b| ≤ R) (h2 : |a + fl b| ≤ R) :
    |fl (a + fl b) - (a + b)| ≤ 2 * η := by
  have e1 := hfl b h1
  have e2 := hfl _ h2
  have : fl (a + fl b) - (a + b) = (fl (a + fl b) - (a + fl b)) + (fl b - b) := by ring
  rw [this]
  calc _ ≤ |fl (a + fl b) - (a + fl b)| + |fl b - b| := abs_add_le _ _
    _ ≤ _ := by linarith

end RoundError

open RoundError

/-- **C136 (one step).** A charged particle moves one step in rounded arithmetic, through any number of cells.  Compare with a particle
that was at most `dX` away with a velocity at most `dU` different, in a field at most `dE` different, and moves without rounding.  The
velocities then differ by at most `dU + |qmdt| dE + 2 η`, and the positions by at most `dX`, `|dt|` times this, and `2 η`. -/
theorem C136_step {A : Arith K g} {R η : K} (hfl : ErrorAtMost A.fl R η) {h : g ≤ p} {M : Mesh K g} {v : Variant}
    {bc : Int → τ → BCall K g p ρ → Except Err (τ × Part K p ρ)} (hbc : KeepsMotion bc) {n : Nat} {time dt qmdt : K}
    {E : Part K p ρ → Option (Vec K p)} {st st' : τ × Vec K p} {q q' : Part K p ρ} {evs : List (Part K p ρ × K)} {e : Vec K p}
    (hE : E q = some e) (h1 : Rounded.moveCharged A h M v bc n time dt qmdt false E st q = .ok (st', q', evs))
    (hR : InRange A.fl R dt qmdt e q.x q.u q'.u) {x u e' : Vec K p} {dX dU dE : K} (hx : ∀ i, |q.x i - x i| ≤ dX)
    (hu : ∀ i, |q.u i - u i| ≤ dU) (he : ∀ i, |e i - e' i| ≤ dE) (i : Fin p) :
    |q'.u i - (u i + qmdt * e' i)| ≤ dU + |qmdt| * dE + 2 * η ∧
      |q'.x i - (x i + (u i + qmdt * e' i) * dt)| ≤ dX + |dt| * (dU + |qmdt| * dE + 2 * η) + 2 * η := by
  obtain ⟨k1, k2⟩ := charged_keeps hbc hE h1
  obtain ⟨r1, r2, r3, r4⟩ := hR i
  have a1 := two_errors hfl r1 r2
  have a2 := two_errors hfl r3 r4
  rw [← k1 i] at a1
  rw [← k2 i] at a2
  have b1 : |q'.u i - (u i + qmdt * e' i)| ≤ dU + |qmdt| * dE + 2 * η := by
    have : q'.u i - (u i + qmdt * e' i) = (q'.u i - (q.u i + qmdt * e i)) + (q.u i - u i) + qmdt * (e i - e' i) := by ring
    rw [this]
    have c := abs_mul qmdt (e i - e' i)
    have c2 := mul_le_mul_of_nonneg_left (he i) (abs_nonneg qmdt)
    calc _ ≤ |q'.u i - (q.u i + qmdt * e i)| + |q.u i - u i| + |qmdt * (e i - e' i)| := abs_add_three _ _ _
      _ ≤ _ := by have := hu i; rw [c]; linarith
  refine ⟨b1, ?_⟩
  have : q'.x i - (x i + (u i + qmdt * e' i) * dt) = (q'.x i - (q.x i + q'.u i * dt)) + (q.x i - x i) + dt * (q'.u i - (u i + qmdt * e' i)) := by ring
  rw [this]
  have c := abs_mul dt (q'.u i - (u i + qmdt * e' i))
  have c2 := mul_le_mul_of_nonneg_left b1 (abs_nonneg dt)
  calc _ ≤ |q'.x i - (q.x i + q'.u i * dt)| + |q.x i - x i| + |dt * (q'.u i - (u i + qmdt * e' i))| := abs_add_three _ _ _
    _ ≤ _ := by have := hx i; rw [c]; linarith

/-- **C136 (any number of steps).** A particle in a uniform field moves in rounded arithmetic (`q 0`, `q 1`, ...), and one that starts
alike moves in exact arithmetic (`r 0`, `r 1`, ...).  After `k` steps the velocities differ by at most `2 k η`, and the positions by at
most `2 k η + k (k + 1) |dt| η`, whatever cells the two have passed. -/
theorem C136_steps {A : Arith K g} {R η : K} (hfl : ErrorAtMost A.fl R η) {h : g ≤ p} {M : Mesh K g} {v : Variant}
    {bc : Int → τ → BCall K g p ρ → Except Err (τ × Part K p ρ)} (hbc : KeepsMotion bc) {n : Nat} {dt qmdt : K} {e : Vec K p}
    {q r : Nat → Part K p ρ} {sq sr : Nat → τ × Vec K p} {time : Nat → K} {eq er : Nat → List (Part K p ρ × K)} (N : Nat)
    (hq : ∀ k < N, Rounded.moveCharged A h M v bc n (time k) dt qmdt false (fun _ => some e) (sq k) (q k) = .ok (sq (k + 1), q (k + 1), eq k))
    (hr : ∀ k < N, moveCharged h M v bc n (time k) dt qmdt false (fun _ => some e) (sr k) (r k) = .ok (sr (k + 1), r (k + 1), er k))
    (hR : ∀ k < N, InRange A.fl R dt qmdt e (q k).x (q k).u (q (k + 1)).u)
    (hx : (q 0).x = (r 0).x) (hu : (q 0).u = (r 0).u) (k : Nat) (hk : k ≤ N) (i : Fin p) :
    |(q k).u i - (r k).u i| ≤ 2 * k * η ∧ |(q k).x i - (r k).x i| ≤ 2 * k * η + k * (k + 1) * |dt| * η := by
  suffices H : (∀ i, |(q k).u i - (r k).u i| ≤ 2 * k * η) ∧ ∀ i, |(q k).x i - (r k).x i| ≤ 2 * k * η + k * (k + 1) * |dt| * η from ⟨H.1 i, H.2 i⟩
  induction k with
  | zero => simp [hx, hu]
  | succ k ih =>
    obtain ⟨i1, i2⟩ := ih (by omega)
    have hrk := hr k (by omega)
    rw [← (C134_exact h M v bc n (time k) dt qmdt false (fun _ => some e) (sr k) (r k)).1] at hrk
    obtain ⟨k1, k2⟩ := charged_keeps hbc (e := e) rfl hrk
    have key := C136_step hfl hbc (e := e) rfl (hq k (by omega)) (hR k (by omega)) i2 i1 (e' := e) (dE := 0) (fun i => by simp)
    have ku : ∀ i, (r (k + 1)).u i = (r k).u i + qmdt * e i := k1
    have kx : ∀ i, (r (k + 1)).x i = (r k).x i + ((r k).u i + qmdt * e i) * dt := fun i => by rw [← ku i]; exact k2 i
    constructor
    · intro i
      rw [ku]
      have := (key i).1
      push_cast
      linarith
    · intro i
      rw [kx]
      have := (key i).2
      push_cast
      nlinarith [this]

/-- **C136 (neutral particles).** A neutral particle moves in rounded arithmetic, and one that starts alike moves in exact arithmetic.
After `k` steps the velocities are the same, and the positions differ by at most `2 k η`. -/
theorem C136_neutral {A : Arith K g} {R η : K} (hfl : ErrorAtMost A.fl R η) {h : g ≤ p} {M : Mesh K g} {v : Variant}
    {bc : Int → τ → BCall K g p ρ → Except Err (τ × Part K p ρ)} (hbc : KeepsMotion bc) {n : Nat} {dt : K}
    {q r : Nat → Part K p ρ} {sq sr : Nat → τ × Vec K p} {time : Nat → K} {eq er : Nat → List (Part K p ρ × K)} (N : Nat)
    (hq : ∀ k < N, Rounded.moveNeutral A h M v bc n (time k) dt (sq k) (q k) = .ok (sq (k + 1), q (k + 1), eq k))
    (hr : ∀ k < N, moveNeutral h M v bc n (time k) dt (sr k) (r k) = .ok (sr (k + 1), r (k + 1), er k))
    (hR : ∀ k < N, ∀ i, |(q k).u i * dt| ≤ R ∧ |(q k).x i + A.fl ((q k).u i * dt)| ≤ R)
    (hx : (q 0).x = (r 0).x) (hu : (q 0).u = (r 0).u) (k : Nat) (hk : k ≤ N) :
    (q k).u = (r k).u ∧ ∀ i, |(q k).x i - (r k).x i| ≤ 2 * k * η := by
  induction k with
  | zero => simp [hx, hu]
  | succ k ih =>
    obtain ⟨i1, i2⟩ := ih (by omega)
    have hrk := hr k (by omega)
    rw [← (C134_exact h M v bc n (time k) dt 0 false (fun _ => none) (sr k) (r k)).2] at hrk
    obtain ⟨k1, k2⟩ := neutral_keeps hbc hrk
    obtain ⟨l1, l2⟩ := neutral_keeps hbc (hq k (by omega))
    refine ⟨l1.trans (i1.trans k1.symm), fun i => ?_⟩
    have kx : (r (k + 1)).x i = (r k).x i + (q k).u i * dt := by rw [i1]; exact k2 i
    have a := two_errors hfl (hR k (by omega) i).1 (hR k (by omega) i).2
    rw [← l2 i] at a
    have b := i2 i
    have : (q (k + 1)).x i - (r (k + 1)).x i = ((q (k + 1)).x i - ((q k).x i + (q k).u i * dt)) + ((q k).x i - (r k).x i) := by rw [kx]; ring
    rw [this]
    push_cast
    calc _ ≤ |(q (k + 1)).x i - ((q k).x i + (q k).u i * dt)| + |(q k).x i - (r k).x i| := abs_add_le _ _
      _ ≤ _ := by linarith

/-! ### Concrete cases -/

theorem nearest_error : ErrorAtMost nearest 3 (1 / 8) := by
  intro a ha
  have h3 : a ≤ 3 := (abs_le.1 ha).2
  have f1 := Int.floor_le (4 * a + 1 / 2)
  have f2 := Int.lt_floor_add_one (4 * a + 1 / 2)
  have hn : nearest a = (⌊4 * a + 1 / 2⌋ : ℚ) / 4 := by
    unfold nearest
    rw [if_pos (by linarith), min_eq_right (by linarith)]
  rw [hn, abs_le]
  constructor <;> linarith

theorem sinkBC_motion : KeepsMotion sinkBC := by
  intro v st c r e
  cases e
  exact ⟨rfl, rfl⟩

/-- A step of an electron in a uniform field on the line of three cells. -/
def errMove (A : Arith ℚ 1) (c : (Unit × Vec ℚ 1) × Part ℚ 1 Nat) : Except Err ((Unit × Vec ℚ 1) × Part ℚ 1 Nat × List (Part ℚ 1 Nat × ℚ)) :=
  Rounded.moveCharged A (le_refl 1) demoLine .charged sinkBC 10 5 (1/2) (3/4) false (fun _ => some ![1/2]) c.1 c.2

def errNext (A : Arith ℚ 1) (c : (Unit × Vec ℚ 1) × Part ℚ 1 Nat) : (Unit × Vec ℚ 1) × Part ℚ 1 Nat :=
  ((errMove A c).toOption.map (fun r => (r.1, r.2.1))).getD c

def errRun (A : Arith ℚ 1) (k : Nat) : (Unit × Vec ℚ 1) × Part ℚ 1 Nat := (errNext A)^[k] (((), ![0]), demoPart (1/2) (3/4) 0 true)

theorem errMove_ok {A : Arith ℚ 1} {k : Nat} (h : (errMove A (errRun A k)).toOption.isSome = true) :
    errMove A (errRun A k) = .ok ((errRun A (k + 1)).1, (errRun A (k + 1)).2, ((errMove A (errRun A k)).toOption.map (fun r => r.2.2)).getD []) := by
  have hs : errRun A (k + 1) = errNext A (errRun A k) := by unfold errRun; rw [Function.iterate_succ_apply']
  rw [hs]
  unfold errNext
  cases e : errMove A (errRun A k) with
  | error x => rw [e] at h; cases h
  | ok r => rfl

/-- Two steps, from cell 0 to cell 2. -/
example : |(errRun coarse 2).2.x 0 - (errRun exactly 2).2.x 0| ≤ 2 * 2 * (1 / 8) + 2 * (2 + 1) * |1 / 2| * (1 / 8) ∧
    (errRun coarse 2).2.x 0 ≠ (errRun exactly 2).2.x 0 ∧ (errRun coarse 2).2.cell ≠ 0 := by
  refine ⟨?_, by decide +kernel, by decide +kernel⟩
  have := C136_steps (A := coarse) nearest_error sinkBC_motion (M := demoLine) (h := le_refl 1) (v := .charged) (n := 10) (dt := 1/2) (qmdt := 3/4)
    (e := ![1/2]) (q := fun k => (errRun coarse k).2) (r := fun k => (errRun exactly k).2) (sq := fun k => (errRun coarse k).1)
    (sr := fun k => (errRun exactly k).1) (time := fun _ => 5)
    (eq := fun k => ((errMove coarse (errRun coarse k)).toOption.map (fun (r : (Unit × Vec ℚ 1) × Part ℚ 1 Nat × List (Part ℚ 1 Nat × ℚ)) => r.2.2)).getD [])
    (er := fun k => ((errMove exactly (errRun exactly k)).toOption.map (fun (r : (Unit × Vec ℚ 1) × Part ℚ 1 Nat × List (Part ℚ 1 Nat × ℚ)) => r.2.2)).getD []) 2
    (fun k hk => by
      have o : (errMove coarse (errRun coarse k)).toOption.isSome = true := by interval_cases k <;> decide +kernel
      exact errMove_ok o)
    (fun k hk => by
      have o : (errMove exactly (errRun exactly k)).toOption.isSome = true := by interval_cases k <;> decide +kernel
      exact ((C134_exact (le_refl 1) demoLine .charged sinkBC 10 5 (1/2) (3/4) false (fun _ => some ![1/2]) (errRun exactly k).1
        (errRun exactly k).2).1.symm.trans (errMove_ok o)))
    (fun k hk i => by
      rw [Subsingleton.elim i 0]
      interval_cases k <;> decide +kernel) rfl rfl 2 le_rfl 0
  exact_mod_cast this.2

/-- A step of a neutral particle on the same line. -/
def driftMove (A : Arith ℚ 1) (c : (Unit × Vec ℚ 1) × Part ℚ 1 Nat) : Except Err ((Unit × Vec ℚ 1) × Part ℚ 1 Nat × List (Part ℚ 1 Nat × ℚ)) :=
  Rounded.moveNeutral A (le_refl 1) demoLine .neutral sinkBC 10 5 (1/2) c.1 c.2

def driftRun (A : Arith ℚ 1) (k : Nat) : (Unit × Vec ℚ 1) × Part ℚ 1 Nat :=
  (fun c => ((driftMove A c).toOption.map (fun r => (r.1, r.2.1))).getD c)^[k] (((), ![0]), demoPart (1/2) (3/4) 0 true)

theorem driftMove_ok {A : Arith ℚ 1} {k : Nat} (h : (driftMove A (driftRun A k)).toOption.isSome = true) :
    driftMove A (driftRun A k) = .ok ((driftRun A (k + 1)).1, (driftRun A (k + 1)).2, ((driftMove A (driftRun A k)).toOption.map (fun r => r.2.2)).getD []) := by
  have hs : driftRun A (k + 1) = ((driftMove A (driftRun A k)).toOption.map (fun r => (r.1, r.2.1))).getD (driftRun A k) := by
    unfold driftRun; rw [Function.iterate_succ_apply']
  rw [hs]
  cases e : driftMove A (driftRun A k) with
  | error x => rw [e] at h; cases h
  | ok r => rfl

/-- Two steps of a neutral particle, into another cell, with rounding. -/
example : |(driftRun coarse 2).2.x 0 - (driftRun exactly 2).2.x 0| ≤ 2 * 2 * (1 / 8) ∧
    (driftRun coarse 2).2.x 0 ≠ (driftRun exactly 2).2.x 0 ∧ (driftRun coarse 2).2.cell ≠ 0 := by
  refine ⟨?_, by decide +kernel, by decide +kernel⟩
  have := C136_neutral (A := coarse) nearest_error sinkBC_motion (M := demoLine) (h := le_refl 1) (v := .neutral) (n := 10) (dt := 1/2)
    (q := fun k => (driftRun coarse k).2) (r := fun k => (driftRun exactly k).2) (sq := fun k => (driftRun coarse k).1)
    (sr := fun k => (driftRun exactly k).1) (time := fun _ => 5)
    (eq := fun k => ((driftMove coarse (driftRun coarse k)).toOption.map (fun (r : (Unit × Vec ℚ 1) × Part ℚ 1 Nat × List (Part ℚ 1 Nat × ℚ)) => r.2.2)).getD [])
    (er := fun k => ((driftMove exactly (driftRun exactly k)).toOption.map (fun (r : (Unit × Vec ℚ 1) × Part ℚ 1 Nat × List (Part ℚ 1 Nat × ℚ)) => r.2.2)).getD []) 2
    (fun k hk => by
      have o : (driftMove coarse (driftRun coarse k)).toOption.isSome = true := by interval_cases k <;> decide +kernel
      exact driftMove_ok o)
    (fun k hk => by
      have o : (driftMove exactly (driftRun exactly k)).toOption.isSome = true := by interval_cases k <;> decide +kernel
      exact ((C134_exact (le_refl 1) demoLine .neutral sinkBC 10 5 (1/2) 0 false (fun _ => none) (driftRun exactly k).1
        (driftRun exactly k).2).2.symm.trans (driftMove_ok o)))
    (fun k hk i => by
      rw [Subsingleton.elim i 0]
      interval_cases k <;> decide +kernel) rfl rfl 2 le_rfl
  exact_mod_cast this.2 0

end Dt
