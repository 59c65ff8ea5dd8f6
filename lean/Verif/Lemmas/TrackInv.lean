import Verif.Lemmas.TrackSafe
import Mathlib.Tactic.Linarith

/-!
# Invariants of the tracking loop
-/

namespace Dt
variable {K : Type} [Field K] [LinearOrder K] [IsStrictOrderedRing K] {g p : Nat} {τ ρ : Type}

/-- Time bookkeeping of the loop: elapsed plus remaining time is the step, recorded times
are in order and not later than the time reached. -/
structure TimeInv (T dt : K) (s : Trk K p τ ρ) : Prop where
  sum : s.tStart + s.rem = T
  rem_nonneg : 0 ≤ s.rem
  rem_le : s.rem ≤ dt
  sorted : (s.events.map Prod.snd).Pairwise (· ≤ ·)
  range : ∀ t ∈ s.events.map Prod.snd, T - dt ≤ t ∧ t ≤ s.tStart

theorem TimeInv.step {h : g ≤ p} {M : Mesh K g} {v : Variant}
    {bc : Int → τ → BCall K g p ρ → Except Err (τ × Part K p ρ)} {T dt : K}
    {s s' : Trk K p τ ρ} {brk : Bool} (hs : TimeInv T dt s) (hc : Crossed h M v bc s s' brk) :
    TimeInv T dt s' := by
  obtain ⟨cFacet, mFacet, new, f, n, c, st1, q, q1, evs, e, -, -, -, -, -, -, hev, -, -, -, h1, h2,
    -, h3, -⟩ := hc.ex
  obtain ⟨f0, f1⟩ := findFacet_range e
  have hp := mul_nonneg f0 hs.rem_nonneg
  have hp' : f * s.rem ≤ s.rem := by
    have := mul_le_mul_of_nonneg_right f1 hs.rem_nonneg
    rwa [one_mul] at this
  have hsum := hs.sum
  have hle := hs.rem_le
  have key : ∀ t ∈ evs.map Prod.snd, t = s'.tStart := by
    intro t ht
    split at hev
    · rw [hev.2.2] at ht; simp at ht
    · rw [hev.2] at ht
      split at ht
      · simp only [List.map_cons, List.map_nil, List.mem_cons, List.not_mem_nil, or_false] at ht
        rw [ht, h1]
      · simp at ht
  have hpw : (evs.map Prod.snd).Pairwise (· ≤ ·) := by
    split at hev
    · rw [hev.2.2]; simp
    · rw [hev.2]; split <;> simp
  refine ⟨by rw [h1, h2]; linarith, by rw [h2]; linarith, by rw [h2]; linarith, ?_, ?_⟩
  · rw [h3, List.map_append, List.pairwise_append]
    refine ⟨hs.sorted, hpw, ?_⟩
    intro a ha b hb
    rw [key b hb, h1]
    have := (hs.range a ha).2
    linarith
  · intro t ht
    rw [h3, List.map_append, List.mem_append] at ht
    rcases ht with ht | ht
    · have := hs.range t ht
      exact ⟨this.1, by rw [h1]; linarith⟩
    · rw [key t ht]
      refine ⟨?_, le_refl _⟩
      rw [h1]
      linarith

/-- A callback that keeps the label of the cell. -/
def KeepsCell (bc : Int → τ → BCall K g p ρ → Except Err (τ × Part K p ρ)) : Prop :=
  ∀ value st call st' q', bc value st call = .ok (st', q') → q'.cell = call.part.cell

omit [IsStrictOrderedRing K] in
theorem cell_step {h : g ≤ p} {M : Mesh K g} {v : Variant}
    {bc : Int → τ → BCall K g p ρ → Except Err (τ × Part K p ρ)} (hbc : KeepsCell bc)
    {s s' : Trk K p τ ρ} {brk : Bool} (hs : s.part.cell = s.cell)
    (hc : Crossed h M v bc s s' brk) :
    (brk = false → s'.part.cell = s'.cell) ∧ (brk = true → s'.part.cell = -1 ∧ s'.part.del = true)
    := by
  obtain ⟨cFacet, mFacet, new, f, n, c, st1, q, q1, evs, -, -, -, -, -, -, hq, hev, -, -, -, -, -,
    -, -, hnew⟩ := hc.ex
  have hq1 : q1.cell = s.cell := by
    split at hev
    · rw [hev.2.1, hq]; exact hs
    · rw [hbc _ _ _ _ _ hev.1, hq]; exact hs
  split at hnew
  · obtain ⟨hcell, rfl, hpart⟩ := hnew
    constructor
    · intro hd
      rw [hpart, if_neg (by simp [hd]), hcell, hq1]
    · intro hd
      rw [hpart, if_pos hd]
      exact ⟨rfl, hd⟩
  · obtain ⟨hcell, rfl, hpart⟩ := hnew
    refine ⟨fun _ => ?_, fun h0 => by cases h0⟩
    rw [hpart, hcell]

/-- The move still to be made is the remaining time times the velocity. -/
def OnOrbit (s : Trk K p τ ρ) : Prop := s.part.x - s.part.x0 = s.rem • s.part.u

/-- A callback after which the remaining move is again the remaining time times the
velocity (for any remaining time).  `fresh`: as in `GoodBC`. -/
def KeepsOrbit (fresh : Prop) (bc : Int → τ → BCall K g p ρ → Except Err (τ × Part K p ρ)) : Prop :=
  ∀ value st call st' q' (r : K), bc value st call = .ok (st', q') →
    (fresh → call.part.x - call.part.x0 = (1 - call.frac) • call.dx) →
    call.part.x - call.part.x0 = r • call.part.u → q'.x - q'.x0 = r • q'.u

omit [LinearOrder K] [IsStrictOrderedRing K] in
theorem rest_of_move {x x0 : Vec K p} {f : K} :
    x - (x0 + f • (x - x0)) = (1 - f) • (x - x0) := by
  funext i
  simp only [Pi.sub_apply, Pi.add_apply, Pi.smul_apply, smul_eq_mul]
  ring

omit [LinearOrder K] [IsStrictOrderedRing K] in
theorem orbit_rem {x x0 u : Vec K p} {r f : K} (h : x - x0 = r • u) :
    x - (x0 + f • (x - x0)) = (r - f * r) • u := by
  funext i
  have := congrFun h i
  simp only [Pi.sub_apply, Pi.add_apply, Pi.smul_apply, smul_eq_mul] at this ⊢
  have h2 : x i = x0 i + r * u i := by linear_combination this
  rw [h2]; ring

omit [IsStrictOrderedRing K] in
theorem orbit_step {h : g ≤ p} {M : Mesh K g} {v : Variant} {T : K}
    {bc : Int → τ → BCall K g p ρ → Except Err (τ × Part K p ρ)} (hbc : KeepsOrbit (v.sharesDx = true) bc)
    {s s' : Trk K p τ ρ} {brk : Bool}
    (hs : OnOrbit s ∧ s.tStart + s.rem = T ∧
      ∀ e ∈ s.events, e.1.x - e.1.x0 = (T - e.2) • e.1.u)
    (hc : Crossed h M v bc s s' brk) :
    OnOrbit s' ∧ s'.tStart + s'.rem = T ∧
      ∀ e ∈ s'.events, e.1.x - e.1.x0 = (T - e.2) • e.1.u := by
  obtain ⟨cFacet, mFacet, new, f, n, c, st1, q, q1, evs, -, -, -, -, -, -, hq, hev, -, -, -, h1, h2,
    -, h3, hnew⟩ := hc.ex
  obtain ⟨ho, hT, he⟩ := hs
  have hqo : q.x - q.x0 = (s.rem - f * s.rem) • q.u := by rw [hq]; exact orbit_rem ho
  have hq1 : q1.x - q1.x0 = (s.rem - f * s.rem) • q1.u := by
    split at hev
    · rw [hev.2.1]; exact hqo
    · refine hbc _ _ _ _ _ _ hev.1 (fun hsh => ?_) hqo
      simp only [if_pos hsh, hq]
      exact rest_of_move
  refine ⟨?_, by rw [h1, h2, ← hT]; ring, ?_⟩
  · unfold OnOrbit
    rw [h2]
    split at hnew
    · obtain ⟨-, -, hpart⟩ := hnew
      rw [hpart]
      split <;> exact hq1
    · obtain ⟨-, -, hpart⟩ := hnew
      rw [hpart]
      exact hq1
  · intro ev hm
    rw [h3, List.mem_append] at hm
    rcases hm with hm | hm
    · exact he ev hm
    · have : ev = (q, s.tStart + f * s.rem) := by
        split at hev
        · rw [hev.2.2] at hm; simp at hm
        · rw [hev.2] at hm
          split at hm
          · simpa using hm
          · simp at hm
      rw [this]
      have hTt : T - (s.tStart + f * s.rem) = s.rem - f * s.rem := by rw [← hT]; ring
      simp only [hTt]
      exact hqo

/-! ### Counting -/

omit [IsStrictOrderedRing K] in
/-- Unfolding of the loop. -/
theorem track_unfold {h : g ≤ p} {M : Mesh K g} {v : Variant}
    {bc : Int → τ → BCall K g p ρ → Except Err (τ × Part K p ρ)} {s s1 : Trk K p τ ρ} {brk : Bool}
    (left : Nat) (hout : M.isInside (proj h s.part.x) s.cell = .ok false)
    (e : crossOnce h M v bc s = .ok (s1, brk)) :
    track h M v bc (left + 1) s = if brk then .ok s1 else track h M v bc left s1 := by
  conv_lhs => unfold track
  rw [hout]
  simp only [bind, Except.bind, Bool.false_eq_true, if_false, e]

omit [IsStrictOrderedRing K] in
theorem track_inside {h : g ≤ p} {M : Mesh K g} {v : Variant}
    {bc : Int → τ → BCall K g p ρ → Except Err (τ × Part K p ρ)} {s : Trk K p τ ρ}
    (left : Nat) (hin : M.isInside (proj h s.part.x) s.cell = .ok true) :
    track h M v bc left s = .ok s := by
  unfold track
  rw [hin]
  rfl

omit [IsStrictOrderedRing K] in
theorem count_step {h : g ≤ p} {M : Mesh K g} {v : Variant}
    {bc : Int → τ → BCall K g p ρ → Except Err (τ × Part K p ρ)} {s s' : Trk K p τ ρ} {brk : Bool}
    (e : crossOnce h M v bc s = .ok (s', brk)) : s'.count = s.count + 1 := by
  obtain ⟨_, _, _, _, _, _, _, _, _, _, _, _, _, _, _, _, _, _, _, h1, _⟩ := (crossOnce_ok e).ex
  exact h1

omit [IsStrictOrderedRing K] in
theorem CrossN.count {h : g ≤ p} {M : Mesh K g} {v : Variant}
    {bc : Int → τ → BCall K g p ρ → Except Err (τ × Part K p ρ)} {k : Nat} {s s' : Trk K p τ ρ}
    (hc : CrossN h M v bc k s s') : s'.count = s.count + k := by
  induction hc with
  | zero s => rfl
  | succ out e r ih => rw [ih, count_step e]; omega

omit [IsStrictOrderedRing K] in
/-- After `k` crossings the loop goes on from the state reached with `k` crossings less
allowed. -/
theorem track_crossN {h : g ≤ p} {M : Mesh K g} {v : Variant}
    {bc : Int → τ → BCall K g p ρ → Except Err (τ × Part K p ρ)} {k : Nat} {s s' : Trk K p τ ρ}
    (hc : CrossN h M v bc k s s') (left : Nat) :
    track h M v bc (k + left) s = track h M v bc left s' := by
  induction hc with
  | zero s => rw [Nat.zero_add]
  | @succ k s s1 s' out e r ih =>
    rw [show k + 1 + left = (k + left) + 1 by omega, track_unfold _ out e]
    simpa using ih

omit [IsStrictOrderedRing K] in
theorem track_ok_iff {h : g ≤ p} {M : Mesh K g} {v : Variant}
    {bc : Int → τ → BCall K g p ρ → Except Err (τ × Part K p ρ)} (left : Nat) :
    ∀ (s s' : Trk K p τ ρ), track h M v bc left s = .ok s' ↔ ∃ k ≤ left, s'.count = s.count + k ∧
      ((CrossN h M v bc k s s' ∧ M.isInside (proj h s'.part.x) s'.cell = .ok true) ∨
        ∃ (j : Nat) (s0 : Trk K p τ ρ), k = j + 1 ∧ CrossN h M v bc j s s0 ∧
          M.isInside (proj h s0.part.x) s0.cell = .ok false ∧
          crossOnce h M v bc s0 = .ok (s', true)) := by
  intro s s'
  constructor
  · induction left generalizing s with
    | zero =>
      intro e
      cases hi : M.isInside (proj h s.part.x) s.cell with
      | error e' => unfold track at e; rw [hi] at e; cases e
      | ok b =>
        cases b with
        | true =>
          rw [track_inside _ hi] at e
          cases e
          exact ⟨0, Nat.le_refl _, rfl, .inl ⟨.zero _, hi⟩⟩
        | false => unfold track at e; rw [hi] at e; simp [bind, Except.bind] at e
    | succ left ih =>
      intro e
      cases hi : M.isInside (proj h s.part.x) s.cell with
      | error e' => unfold track at e; rw [hi] at e; cases e
      | ok b =>
        cases b with
        | true =>
          rw [track_inside _ hi] at e
          cases e
          exact ⟨0, Nat.zero_le _, rfl, .inl ⟨.zero _, hi⟩⟩
        | false =>
          cases hc : crossOnce h M v bc s with
          | error e' =>
            unfold track at e; rw [hi] at e
            simp only [bind, Except.bind, Bool.false_eq_true, if_false, hc] at e
            cases e
          | ok r =>
            obtain ⟨s1, brk⟩ := r
            rw [track_unfold _ hi hc] at e
            have h1 := count_step hc
            cases brk with
            | true =>
              simp only [if_true, Except.ok.injEq] at e
              subst e
              exact ⟨1, by omega, h1, .inr ⟨0, s, rfl, .zero s, hi, hc⟩⟩
            | false =>
              simp only [Bool.false_eq_true, if_false] at e
              obtain ⟨k, hk, hcount, hh⟩ := ih s1 e
              refine ⟨k + 1, by omega, by omega, ?_⟩
              rcases hh with ⟨hh, hin⟩ | ⟨j, s0, rfl, hh, hout, hlast⟩
              · exact .inl ⟨.succ hi hc hh, hin⟩
              · exact .inr ⟨j + 1, s0, rfl, .succ hi hc hh, hout, hlast⟩
  · rintro ⟨k, hk, -, hh⟩
    rcases hh with ⟨hh, hin⟩ | ⟨j, s0, rfl, hh, hout, hlast⟩
    · obtain ⟨m, rfl⟩ := Nat.exists_eq_add_of_le hk
      rw [track_crossN hh, track_inside _ hin]
    · obtain ⟨m, rfl⟩ := Nat.exists_eq_add_of_le hk
      rw [show j + 1 + m = j + (m + 1) by omega, track_crossN hh, track_unfold _ hout hlast]
      rfl

omit [IsStrictOrderedRing K] in
theorem track_tooMany {h : g ≤ p} {M : Mesh K g} {v : Variant}
    {bc : Int → τ → BCall K g p ρ → Except Err (τ × Part K p ρ)} {left : Nat} {s s' : Trk K p τ ρ}
    (hc : CrossN h M v bc left s s') (hout : M.isInside (proj h s'.part.x) s'.cell = .ok false) :
    track h M v bc left s = .error (v.err .tooMany) := by
  have := track_crossN hc 0
  rw [Nat.add_zero] at this
  rw [this]
  unfold track
  rw [hout]
  rfl

/-! ### No callback -/

/-- The callback that always fails: a run with it that ends normally calls no
callback. -/
def noCallback : Int → τ → BCall K g p ρ → Except Err (τ × Part K p ρ) := fun _ _ _ => .error .exit

/-- Tracking has changed at most the start point and the cell of the record. -/
structure Untouched (s s' : Trk K p τ ρ) : Prop where
  x : s'.part.x = s.part.x
  u : s'.part.u = s.part.u
  del : s'.part.del = s.part.del
  traj : s'.part.traj = s.part.traj
  crossings : s'.part.crossings = s.part.crossings
  rest : s'.part.rest = s.part.rest
  st : s'.st = s.st
  events : s'.events = s.events

omit [IsStrictOrderedRing K] in
theorem untouched_step {h : g ≤ p} {M : Mesh K g} {v : Variant} {s0 s s' : Trk K p τ ρ}
    {brk : Bool} (hs : Untouched s0 s) (hc : Crossed h M v noCallback s s' brk) :
    Untouched s0 s' := by
  obtain ⟨cFacet, mFacet, new, f, n, c, st1, q, q1, evs, -, -, -, -, -, -, hq, hev, h0, -, -, -, -,
    -, h3, hnew⟩ := hc.ex
  have : st1 = s.st ∧ q1 = q ∧ evs = [] := by
    split at hev
    · exact hev
    · have := hev.1
      simp [noCallback] at this
  obtain ⟨rfl, rfl, rfl⟩ := this
  rw [List.append_nil] at h3
  have hpart : ∃ ce, s'.part = { q1 with cell := ce } := by
    split at hnew
    · obtain ⟨-, -, hpart⟩ := hnew
      split at hpart
      · exact ⟨_, hpart⟩
      · exact ⟨q1.cell, hpart⟩
    · obtain ⟨-, -, hpart⟩ := hnew
      exact ⟨_, hpart⟩
  obtain ⟨ce, hpart⟩ := hpart
  subst hq
  refine ⟨?_, ?_, ?_, ?_, ?_, ?_, ?_, ?_⟩
  · rw [hpart]; exact hs.x
  · rw [hpart]; exact hs.u
  · rw [hpart]; exact hs.del
  · rw [hpart]; exact hs.traj
  · rw [hpart]; exact hs.crossings
  · rw [hpart]; exact hs.rest
  · rw [h0]; exact hs.st
  · rw [h3]; exact hs.events

omit [IsStrictOrderedRing K] in
/-- One crossing without callback does not depend on the callback. -/
theorem crossOnce_noCallback {h : g ≤ p} {M : Mesh K g} {v : Variant} {s s' : Trk K p τ ρ}
    {brk : Bool} (e : crossOnce h M v noCallback s = .ok (s', brk))
    (bc : Int → τ → BCall K g p ρ → Except Err (τ × Part K p ρ)) :
    crossOnce h M v bc s = .ok (s', brk) := by
  unfold crossOnce at e ⊢
  dsimp only at e ⊢
  cases hf : M.findFacet (proj h s.part.x0) (proj h (s.part.x - s.part.x0)) s.cell with
  | error e' => rw [hf] at e; cases e
  | ok r =>
    obtain ⟨cFacet, f, n⟩ := r
    rw [hf] at e
    simp only [bind, Except.bind] at e ⊢
    split at e
    · cases e
    · rename_i hne
      rw [if_neg hne]
      cases hl : M.lookup s.cell with
      | error e' => rw [hl] at e; cases e
      | ok c =>
        rw [hl] at e
        simp only at e ⊢
        cases hm : pyGet c.facets cFacet with
        | error e' => rw [hm] at e; cases e
        | ok mFacet =>
          rw [hm] at e
          simp only at e ⊢
          split at e
          · cases e
          · rename_i hlast
            rw [if_neg hlast]
            by_cases hmk : M.marker mFacet = 0
            · rw [if_neg (by simp [hmk])] at e ⊢
              exact e
            · rw [if_pos hmk] at e
              simp only [atMarked, noCallback, bind, Except.bind] at e
              split at e
              · cases e
              · rename_i h1
                split at h1 <;> cases h1

omit [IsStrictOrderedRing K] in
theorem track_noCallback {h : g ≤ p} {M : Mesh K g} {v : Variant} {left : Nat} :
    ∀ {s s' : Trk K p τ ρ}, track h M v noCallback left s = .ok s' →
    ∀ (bc : Int → τ → BCall K g p ρ → Except Err (τ × Part K p ρ)),
    track h M v bc left s = .ok s' := by
  induction left with
  | zero =>
    intro s s' e bc
    unfold track at e ⊢
    exact e
  | succ left ih =>
    intro s s' e bc
    cases hi : M.isInside (proj h s.part.x) s.cell with
    | error e' => unfold track at e; rw [hi] at e; cases e
    | ok b =>
      cases b with
      | true =>
        rw [track_inside _ hi] at e ⊢
        exact e
      | false =>
        cases hc : crossOnce h M v noCallback s with
        | error e' =>
          unfold track at e; rw [hi] at e
          simp only [bind, Except.bind, Bool.false_eq_true, if_false, hc] at e
          cases e
        | ok r =>
          obtain ⟨s1, brk⟩ := r
          rw [track_unfold _ hi hc] at e
          rw [track_unfold _ hi (crossOnce_noCallback hc bc)]
          cases brk with
          | true => exact e
          | false => exact ih e bc

end Dt
