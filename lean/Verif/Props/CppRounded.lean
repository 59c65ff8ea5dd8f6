import Verif.Props.Rounded
import Verif.Props.CppTrack
import Verif.Spec.CppRounded

/-!
# What holds in compiled code in spite of rounding errors (C134)
-/

set_option linter.unusedSectionVars false

namespace Dt
open Spec (IsCRounding CWalk cExactly separate fused)
variable {K : Type} [Field K] [LinearOrder K] [IsStrictOrderedRing K] {g p : Nat} {τ ρ : Type}

namespace CppRounded

/-! ### `find_facet` -/

theorem testFacet_range {A : CArith K} (hA : IsCRounding A) {c : CppCell K} {x0 dx : Vec K g} {k w : Nat} {acc acc' : Int × K}
    (h : 0 ≤ acc.2 ∧ acc.2 ≤ 1) (e : testFacet A g c x0 dx k w acc = .ok acc') :
    (0 ≤ acc'.2 ∧ acc'.2 ≤ 1) ∧ (acc'.1 = acc.1 ∨ acc'.1 = k) := by
  unfold testFacet at e
  cases hn : loadVec c.normals (k * 3) g with
  | error e' => rw [hn] at e; cases e
  | ok n =>
    rw [hn] at e
    simp only [bind, Except.bind] at e
    split at e
    · rename_i hpos
      cases hv : loadVec c.coords (w * g) g with
      | error e' => rw [hv] at e; cases e
      | ok v =>
        rw [hv] at e
        simp only at e
        generalize hd : (if A.dot g n (fun i => A.fl (v i - x0 i)) < 0 then -A.dot g n (fun i => A.fl (v i - x0 i))
          else A.dot g n (fun i => A.fl (v i - x0 i))) = d at e
        have hd0 : 0 ≤ d := by
          rw [← hd]; split
          · rename_i hneg; exact (neg_pos.2 hneg).le
          · rename_i hneg; exact not_lt.1 hneg
        split at e
        · rename_i hlt
          cases e
          have h1 : A.fl (acc.2 * A.dot g n dx) ≤ A.dot g n dx := by
            calc _ ≤ A.fl (A.dot g n dx) := hA.mono _ _ (by nlinarith [h.2, hpos])
              _ = _ := hA.dot _ _ _
          refine ⟨⟨?_, ?_⟩, .inr rfl⟩
          · rw [← hA.zero]; exact hA.mono _ _ (div_nonneg hd0 hpos.le)
          · show A.fl _ ≤ 1
            rw [← hA.one]
            exact hA.mono _ _ ((div_le_one hpos).2 (hlt.le.trans h1))
        · cases e; exact ⟨h, .inl rfl⟩
    · cases e; exact ⟨h, .inl rfl⟩

theorem normal_nonneg {c : CppCell K} {facet : Int} {n : Vec K g} (e : cppNormal g c facet = .ok n) : 0 ≤ facet := by
  unfold cppNormal at e
  split at e
  · assumption
  · cases e

theorem findFacet3_range {A : CArith K} (hA : IsCRounding A) {c : CppCell K} {x0 dx : Vec K 3} {facet : Int} {f : K} {n : Option (Vec K 3)}
    (e : findFacet3 A c x0 dx = .ok (facet, f, n)) : (0 ≤ f ∧ f ≤ 1) ∧ 0 ≤ facet ∧ facet ≤ 3 := by
  unfold findFacet3 at e
  cases h0 : testFacet A 3 c x0 dx 0 1 (noFacet, 1) with
  | error e' => rw [h0] at e; cases e
  | ok a =>
    rw [h0] at e; simp only [bind, Except.bind] at e
    obtain ⟨r0, k0⟩ := testFacet_range hA ⟨zero_le_one, le_rfl⟩ h0
    cases h1 : testFacet A 3 c x0 dx 1 2 a with
    | error e' => rw [h1] at e; cases e
    | ok a1 =>
      rw [h1] at e; simp only at e
      obtain ⟨r1, k1⟩ := testFacet_range hA r0 h1
      cases h2 : testFacet A 3 c x0 dx 2 3 a1 with
      | error e' => rw [h2] at e; cases e
      | ok a2 =>
        rw [h2] at e; simp only at e
        obtain ⟨r2, k2⟩ := testFacet_range hA r1 h2
        cases h3 : testFacet A 3 c x0 dx 3 0 a2 with
        | error e' => rw [h3] at e; cases e
        | ok a3 =>
          rw [h3] at e; simp only at e
          obtain ⟨r3, k3⟩ := testFacet_range hA r2 h3
          split at e
          · cases e
          · cases hn : cppNormal 3 c a3.1 with
            | error e' => rw [hn] at e; cases e
            | ok n =>
              rw [hn] at e
              cases e
              refine ⟨r3, normal_nonneg hn, ?_⟩
              simp only [noFacet] at k0
              push_cast at k0 k1 k2 k3
              omega

theorem findFacet2_range {A : CArith K} (hA : IsCRounding A) {c : CppCell K} {x0 dx : Vec K 2} {facet : Int} {f : K} {n : Option (Vec K 2)}
    (e : findFacet2 A c x0 dx = .ok (facet, f, n)) : (0 ≤ f ∧ f ≤ 1) ∧ 0 ≤ facet ∧ facet ≤ 2 := by
  unfold findFacet2 at e
  cases h0 : testFacet A 2 c x0 dx 0 1 (noFacet, 1) with
  | error e' => rw [h0] at e; cases e
  | ok a =>
    rw [h0] at e; simp only [bind, Except.bind] at e
    obtain ⟨r0, k0⟩ := testFacet_range hA ⟨zero_le_one, le_rfl⟩ h0
    cases h1 : testFacet A 2 c x0 dx 1 2 a with
    | error e' => rw [h1] at e; cases e
    | ok a1 =>
      rw [h1] at e; simp only at e
      obtain ⟨r1, k1⟩ := testFacet_range hA r0 h1
      cases h2 : testFacet A 2 c x0 dx 2 0 a1 with
      | error e' => rw [h2] at e; cases e
      | ok a2 =>
        rw [h2] at e; simp only at e
        obtain ⟨r2, k2⟩ := testFacet_range hA r1 h2
        split at e
        · cases e
        · cases hn : cppNormal 2 c a2.1 with
          | error e' => rw [hn] at e; cases e
          | ok n =>
            rw [hn] at e
            cases e
            refine ⟨r2, normal_nonneg hn, ?_⟩
            simp only [noFacet] at k0
            push_cast at k0 k1 k2
            omega

theorem findFacet1_range {A : CArith K} {c : CppCell K} {x0 dx : Vec K 1} {facet : Int} {f : K} {n : Option (Vec K 1)}
    (e : findFacet1 A c x0 dx = .ok (facet, f, n)) : (0 ≤ f ∧ f ≤ 1) ∧ 0 ≤ facet ∧ facet ≤ 1 := by
  unfold findFacet1 at e
  cases h0 : testFacet A 1 c x0 dx 0 0 (noFacet, 1) with
  | error e' => rw [h0] at e; cases e
  | ok a =>
    rw [h0] at e; simp only [bind, Except.bind] at e
    split at e
    · rename_i hz
      split at e
      · rename_i hr
        cases hn : cppNormal 1 c a.1 with
        | error e' => rw [hn] at e; cases e
        | ok n => rw [hn] at e; cases e; exact ⟨hr, by omega, by omega⟩
      · cases e
    · cases h1 : testFacet A 1 c x0 dx 1 1 (noFacet, 1) with
      | error e' => rw [h1] at e; cases e
      | ok a1 =>
        rw [h1] at e; simp only at e
        split at e
        · rename_i hz
          split at e
          · rename_i hr
            cases hn : cppNormal 1 c a1.1 with
            | error e' => rw [hn] at e; cases e
            | ok n => rw [hn] at e; cases e; exact ⟨hr, by omega, by omega⟩
          · cases e
        · cases e

theorem findFacet_range {A : CArith K} (hA : IsCRounding A) {c : CppCell K} {x0 dx : Vec K g} {facet : Int} {f : K} {n : Option (Vec K g)}
    (e : findFacet A g c x0 dx = .ok (facet, f, n)) : (0 ≤ f ∧ f ≤ 1) ∧ -1 ≤ facet ∧ facet ≤ g := by
  unfold findFacet at e
  split at e
  · split at e
    · cases e; exact ⟨⟨zero_le_one, le_rfl⟩, by decide, by decide⟩
    · obtain ⟨h1, h2, h3⟩ := findFacet3_range hA e
      exact ⟨h1, by omega, by exact_mod_cast h3⟩
  · split at e
    · cases e; exact ⟨⟨zero_le_one, le_rfl⟩, by decide, by decide⟩
    · obtain ⟨h1, h2, h3⟩ := findFacet2_range hA e
      exact ⟨h1, by omega, by exact_mod_cast h3⟩
  · split at e
    · cases e; exact ⟨⟨zero_le_one, le_rfl⟩, by decide, by decide⟩
    · obtain ⟨h1, h2, h3⟩ := findFacet1_range e
      exact ⟨h1, by omega, by exact_mod_cast h3⟩
  · cases e; exact ⟨⟨zero_le_one, le_rfl⟩, by simp [noFacet], by simp only [noFacet]; omega⟩

/-! ### One crossing -/

theorem cGet_mem {β : Type} {xs : List β} {i : Int} {b : β} (e : cGet xs i = .ok b) : b ∈ xs := by
  unfold cGet at e
  split at e
  · cases hx : xs[i.toNat]? with
    | none => rw [hx] at e; cases e
    | some b' => rw [hx] at e; cases e; exact List.mem_of_getElem? hx
  · cases e

theorem next_ok {c : CppMeshCell K} {cFacet : Int} {t t' : Trk K p τ ρ} {brk : Bool} (e : cppNextCell c cFacet t = .ok (t', brk)) :
    ∃ new, cGet c.neighbors cFacet = .ok new ∧ t'.count = t.count ∧ t'.tStart = t.tStart ∧ t'.rem = t.rem ∧ t'.events = t.events ∧
      t'.part.del = t.part.del ∧
      (if new = -1 then t'.cell = t.cell ∧ brk = t.part.del ∧ t'.part.cell = (if t.part.del then -1 else t.part.cell)
      else t'.cell = new ∧ brk = false ∧ t'.part.cell = new) := by
  unfold cppNextCell at e
  cases hn : cGet c.neighbors cFacet with
  | error e' => rw [hn] at e; cases e
  | ok new =>
    rw [hn] at e
    simp only [bind, Except.bind, noCell] at e
    refine ⟨new, rfl, ?_⟩
    by_cases h1 : new = -1
    · rw [if_pos h1] at e ⊢
      by_cases h2 : t.part.del = true
      · rw [if_pos h2] at e ⊢
        cases e
        exact ⟨rfl, rfl, rfl, rfl, rfl, rfl, h2.symm, rfl⟩
      · rw [if_neg h2] at e ⊢
        cases e
        exact ⟨rfl, rfl, rfl, rfl, rfl, rfl, by simpa using h2, rfl⟩
    · rw [if_neg h1] at e ⊢
      cases e
      exact ⟨rfl, rfl, rfl, rfl, rfl, rfl, rfl, rfl⟩

theorem marked_ok {bc : Int → τ → BCall K g p ρ → Except Err (τ × Part K p ρ)} (hbc : KeepsCell bc) {value : Int} {f : K}
    {n : Option (Vec K g)} {mFacet : Int} {s s' : Trk K p τ ρ} (e : cppAtMarked bc value f n mFacet s = .ok s') :
    s'.count = s.count ∧ s'.tStart = s.tStart ∧ s'.rem = s.rem ∧ s'.cell = s.cell ∧ s'.part.cell = s.part.cell ∧
      (s'.events = s.events ∨ ∃ q, s'.events = s.events ++ [(q, s.tStart)]) := by
  unfold cppAtMarked at e
  cases hb : bc value s.st ⟨s.part, mFacet, f, n, s.dxS⟩ with
  | error e' => rw [hb] at e; cases e
  | ok r =>
    obtain ⟨st1, q1⟩ := r
    rw [hb] at e
    cases e
    refine ⟨rfl, rfl, rfl, rfl, hbc _ _ _ _ _ hb, ?_⟩
    by_cases ht : s.part.traj = true
    · exact .inr ⟨s.part, by simp [ht]⟩
    · exact .inl (by simp [ht])

/-- What one round of the tracking loop does to the labels and the times. -/
structure Moved (A : CArith K) (g : Nat) (M : CppMesh K) (s s' : Trk K p τ ρ) (brk : Bool) : Prop where
  count : s'.count = s.count + 1
  cell : ∃ c, M.cell s.cell = some c ∧
    (brk = false → s'.part.cell = s'.cell ∧ ((s'.cell ∈ c.neighbors ∧ s'.cell ≠ -1) ∨ (s'.cell = s.cell ∧ -1 ∈ c.neighbors))) ∧
    (brk = true → -1 ∈ c.neighbors ∧ s'.part.del = true ∧ s'.part.cell = -1)
  times : ∃ (c : CppCell K) (x0 dx : Vec K g) (facet : Int) (f : K) (n : Option (Vec K g)), findFacet A g c x0 dx = .ok (facet, f, n) ∧
    s'.tStart = A.mulAdd s.tStart f s.rem ∧ s'.rem = A.fl (A.fl (1 - f) * s.rem)
  events : s'.events = s.events ∨ ∃ q, s'.events = s.events ++ [(q, s'.tStart)]

theorem crossOnce_moved {A : CArith K} {h : g ≤ p} {L : Layout K p} {M : CppMesh K}
    {bc : Int → τ → BCall K g p ρ → Except Err (τ × Part K p ρ)} (hbc : KeepsCell bc) {sc sc' : Scratch K} {s s' : Trk K p τ ρ} {brk : Bool}
    (hs : s.part.cell = s.cell) (e : crossOnce A h L M bc sc s = .ok (s', brk, sc')) : Moved A g M s s' brk := by
  unfold crossOnce at e
  cases hl : M.cell s.cell with
  | none =>
    have : M.lookup s.cell = .error .runtime := by unfold CppMesh.lookup; rw [hl]
    rw [this] at e; cases e
  | some c =>
    have : M.lookup s.cell = .ok c := by unfold CppMesh.lookup; rw [hl]
    rw [this] at e
    simp only [bind, Except.bind, noFacet] at e
    generalize L.fill sc s.part.x s.part.x0 = sc1 at e
    cases hf : findFacet A g c.geo (sc1.from p g) (proj h (fun i => A.fl (sc1 i - sc1 (L.off + i)))) with
    | error e' => rw [hf] at e; cases e
    | ok r =>
      obtain ⟨cFacet, f, n⟩ := r
      rw [hf] at e
      simp only at e
      split at e
      · cases e
      · cases hm : cGet c.facets cFacet with
        | error e' => rw [hm] at e; cases e
        | ok mFacet =>
          rw [hm] at e
          simp only at e
          split at e
          · cases e
          · generalize hs1 : ({ s with
                count := s.count + 1
                tStart := A.mulAdd s.tStart f s.rem
                rem := A.fl (A.fl (1 - f) * s.rem)
                part := { s.part with x0 := fun i => A.mulAdd (s.part.x0 i) f (A.fl (sc1 i - sc1 (L.off + i))) }
                last := mFacet
                dxS := fun i => A.fl (sc1 i - sc1 (L.off + i)) } : Trk K p τ ρ) = s1 at e
            have key : ∃ s2, cppNextCell c cFacet s2 = .ok (s', brk) ∧ s2.count = s1.count ∧ s2.tStart = s1.tStart ∧ s2.rem = s1.rem ∧
                s2.cell = s1.cell ∧ s2.part.cell = s1.part.cell ∧ (s2.events = s1.events ∨ ∃ q, s2.events = s1.events ++ [(q, s1.tStart)]) := by
              by_cases hmk : M.marker mFacet = 0
              · rw [if_neg (by simp [hmk])] at e
                cases hx : cppNextCell c cFacet s1 with
                | error e' => rw [hx] at e; cases e
                | ok r =>
                  rw [hx] at e
                  obtain ⟨r1, r2⟩ := r
                  cases e
                  exact ⟨s1, hx, rfl, rfl, rfl, rfl, rfl, .inl rfl⟩
              · rw [if_pos hmk] at e
                cases ha : cppAtMarked bc (M.marker mFacet) f n mFacet s1 with
                | error e' => rw [ha] at e; cases e
                | ok s2 =>
                  rw [ha] at e
                  simp only at e
                  cases hx : cppNextCell c cFacet s2 with
                  | error e' => rw [hx] at e; cases e
                  | ok r =>
                    rw [hx] at e
                    obtain ⟨r1, r2⟩ := r
                    cases e
                    exact ⟨s2, hx, marked_ok hbc ha⟩
            obtain ⟨s2, e2, k1, k2, k3, k4, k5, k6⟩ := key
            obtain ⟨new, hn, n1, n2, n3, n4, n5, n6⟩ := next_ok e2
            have hmem := cGet_mem hn
            subst hs1
            refine ⟨by rw [n1, k1], ⟨c, hl, ?_, ?_⟩, ⟨_, _, _, _, _, _, hf, by rw [n2, k2], by rw [n3, k3]⟩, ?_⟩
            · intro hb
              split at n6
              · rename_i h1
                obtain ⟨m1, m2, m3⟩ := n6
                rw [hb] at m2
                rw [← m2] at m3
                refine ⟨?_, .inr ⟨by rw [m1, k4], h1 ▸ hmem⟩⟩
                rw [m3, m1, k4]; simp [k5, hs]
              · rename_i h1
                obtain ⟨m1, -, m3⟩ := n6
                exact ⟨by rw [m3, m1], .inl ⟨m1 ▸ hmem, by rw [m1]; exact h1⟩⟩
            · intro hb
              split at n6
              · rename_i h1
                obtain ⟨m1, m2, m3⟩ := n6
                rw [hb] at m2
                rw [← m2] at m3
                exact ⟨h1 ▸ hmem, by rw [n5, ← m2], by simpa using m3⟩
              · rw [hb] at n6; cases n6.2.1
            · rw [n4, n2, k2]; exact k6

/-! ### The tracking loop -/

/-- An invariant `P` of the rounds, for the number of rounds left and the state. -/
theorem track_rule {A : CArith K} {h : g ≤ p} {L : Layout K p} {M : CppMesh K}
    {bc : Int → τ → BCall K g p ρ → Except Err (τ × Part K p ρ)} {P : Nat → Trk K p τ ρ → Prop} {Q : Trk K p τ ρ → Prop}
    (hstep : ∀ n sc sc' s s', P (n + 1) s → crossOnce A h L M bc sc s = .ok (s', false, sc') → P n s')
    (hbrk : ∀ n sc sc' s s', P (n + 1) s → crossOnce A h L M bc sc s = .ok (s', true, sc') → Q s')
    (hin : ∀ n s, P n s → isInside A g M s.part.x s.cell = .ok true → Q s) (n : Nat) (sc sc' : Scratch K) (s s' : Trk K p τ ρ) (hs : P n s)
    (e : track A h L M bc n sc s = .ok (s', sc')) : Q s' := by
  induction n generalizing s sc with
  | zero =>
    unfold track at e
    cases hi : isInside A g M s.part.x s.cell with
    | error e' => rw [hi] at e; cases e
    | ok b =>
      rw [hi] at e
      cases b with
      | true => cases e; exact hin _ _ hs hi
      | false => cases e
  | succ n ih =>
    unfold track at e
    cases hi : isInside A g M s.part.x s.cell with
    | error e' => rw [hi] at e; cases e
    | ok b =>
      rw [hi] at e
      cases b with
      | true => cases e; exact hin _ _ hs hi
      | false =>
        simp only [bind, Except.bind, Bool.false_eq_true, if_false] at e
        cases hc : crossOnce A h L M bc sc s with
        | error e' => rw [hc] at e; cases e
        | ok r =>
          obtain ⟨s1, brk, sc1⟩ := r
          rw [hc] at e
          cases brk with
          | true => simp only [if_true] at e; cases e; exact hbrk _ _ _ _ _ hs hc
          | false => exact ih sc1 s1 (hstep _ _ _ s s1 hs hc) e

theorem move_split {A : CArith K} {h : g ≤ p} {L : Layout K p} {M : CppMesh K}
    {bc : Int → τ → BCall K g p ρ → Except Err (τ × Part K p ρ)} {n : Nat} {time dt qmdt : K}
    {E : Part K p ρ → Option (Vec K p)} {st st' : (τ × Vec K p) × Scratch K} {q q' : Part K p ρ} {evs : List (Part K p ρ × K)}
    (e : move A h L M bc n time dt qmdt E st q = .ok (st', q', evs)) :
    ∃ q2 s sc', q2.cell = q.cell ∧ track A h L M bc n st.2 (startTrk A time dt st.1.1 st.1.2 q2) = .ok (s, sc') ∧
      q' = { s.part with crossings := s.count } ∧ evs = s.events := by
  unfold move at e
  cases ht : track A h L M bc n st.2 (startTrk A time dt st.1.1 st.1.2 (moveBy A dt (accelerate A qmdt (E q) q))) with
  | error e' => rw [ht] at e; cases e
  | ok r =>
    obtain ⟨s, sc'⟩ := r
    rw [ht] at e
    cases e
    refine ⟨_, s, sc', ?_, ht, rfl, rfl⟩
    cases hE : E q <;> rfl

end CppRounded

open CppRounded in
/-- C134, compiled movers, whatever the arithmetic: when a particle has been moved and tracked and the program goes on, it passes the
test of the code for the cell it is labelled with, and there is a way from its old cell to the new one with as many moves as its
counter of crossings says; or it is flagged as deleted, labelled NO_CELL, and was deleted in a cell that has a side without neighbour.
The counter is at most the maximum. -/
theorem C134_compiled_labels {A : CArith K} {h : g ≤ p} {L : Layout K p} {M : CppMesh K}
    {bc : Int → τ → BCall K g p ρ → Except Err (τ × Part K p ρ)} (hbc : KeepsCell bc) {n : Nat} {time dt qmdt : K}
    {E : Part K p ρ → Option (Vec K p)} {st st' : (τ × Vec K p) × Scratch K} {q q' : Part K p ρ} {evs : List (Part K p ρ × K)}
    (e : CppRounded.move A h L M bc n time dt qmdt E st q = .ok (st', q', evs)) :
    q'.crossings ≤ n ∧
    ((CppRounded.isInside A g M q'.x q'.cell = .ok true ∧ CWalk M q'.crossings q.cell q'.cell) ∨
      (q'.del = true ∧ q'.cell = -1 ∧ ∃ k b c, q'.crossings = k + 1 ∧ CWalk M k q.cell b ∧ M.cell b = some c ∧ -1 ∈ c.neighbors)) := by
  obtain ⟨q2, s, sc', hq, ht, rfl, -⟩ := move_split e
  refine track_rule (P := fun left t => t.count + left = n ∧ t.part.cell = t.cell ∧ CWalk M t.count q.cell t.cell)
    (Q := fun t => t.count ≤ n ∧ ((CppRounded.isInside A g M t.part.x t.part.cell = .ok true ∧ CWalk M t.count q.cell t.part.cell) ∨
      (t.part.del = true ∧ t.part.cell = -1 ∧ ∃ k b c, t.count = k + 1 ∧ CWalk M k q.cell b ∧ M.cell b = some c ∧ -1 ∈ c.neighbors)))
    ?_ ?_ ?_ n _ _ _ s ⟨by simp [CppRounded.startTrk], rfl, by rw [← hq]; exact .start _⟩ ht
  · rintro left sc sc1 t t' ⟨h0, h1, h2⟩ hc
    have hm := crossOnce_moved hbc h1 hc
    obtain ⟨c, hcell, h3, -⟩ := hm.cell
    obtain ⟨h4, h5⟩ := h3 rfl
    refine ⟨by rw [hm.count]; omega, h4, ?_⟩
    rw [hm.count]
    rcases h5 with ⟨h5, h6⟩ | ⟨h5, h6⟩
    · exact .next c h2 hcell h5 h6
    · rw [h5]; exact .turn c h2 hcell h6
  · rintro left sc sc1 t t' ⟨h0, h1, h2⟩ hc
    have hm := crossOnce_moved hbc h1 hc
    obtain ⟨c, hcell, -, h3⟩ := hm.cell
    obtain ⟨h4, h5, h6⟩ := h3 rfl
    exact ⟨by rw [hm.count]; omega, .inr ⟨h5, h6, _, _, c, hm.count, h2, hcell, h4⟩⟩
  · rintro left t ⟨h0, h1, h2⟩ hin
    exact ⟨by omega, .inl ⟨by rw [h1]; exact hin, by rw [h1]; exact h2⟩⟩

/-- C134, compiled `find_facet`: with a monotone rounding the fraction of a move that is returned is between 0 and 1, and the facet is
NO_FACET or a facet of the cell. -/
theorem C134_compiled_fraction {A : CArith K} (hA : IsCRounding A) {c : CppCell K} {x0 dx : Vec K g} {facet : Int} {f : K}
    {n : Option (Vec K g)} (e : CppRounded.findFacet A g c x0 dx = .ok (facet, f, n)) : (0 ≤ f ∧ f ≤ 1) ∧ -1 ≤ facet ∧ facet ≤ g :=
  CppRounded.findFacet_range hA e

open CppRounded in
/-- C134, compiled movers: with a monotone rounding, fused or not, the times recorded for the crossings of a particle do not decrease
and are not before the (rounded) beginning of the step.  Missing: not after its end. -/
theorem C134_compiled_times_partial {A : CArith K} (hA : IsCRounding A) {h : g ≤ p} {L : Layout K p} {M : CppMesh K}
    {bc : Int → τ → BCall K g p ρ → Except Err (τ × Part K p ρ)} (hbc : KeepsCell bc) {n : Nat} {time dt qmdt : K} (hdt : 0 ≤ dt)
    {E : Part K p ρ → Option (Vec K p)} {st st' : (τ × Vec K p) × Scratch K} {q q' : Part K p ρ} {evs : List (Part K p ρ × K)}
    (e : CppRounded.move A h L M bc n time dt qmdt E st q = .ok (st', q', evs)) :
    (evs.map Prod.snd).Pairwise (· ≤ ·) ∧ ∀ t ∈ evs.map Prod.snd, A.fl (time - dt) ≤ t := by
  obtain ⟨q2, s, sc', hq, ht, -, rfl⟩ := move_split e
  let T : Trk K p τ ρ → Prop := fun t => A.fl (time - dt) ≤ t.tStart ∧ A.fl t.tStart = t.tStart ∧ 0 ≤ t.rem ∧
    (t.events.map Prod.snd).Pairwise (· ≤ ·) ∧ ∀ r ∈ t.events.map Prod.snd, A.fl (time - dt) ≤ r ∧ r ≤ t.tStart
  have step : ∀ (t t' : Trk K p τ ρ) (brk : Bool), T t → Moved A g M t t' brk → T t' := by
    rintro t t' brk ⟨h1, h2, h3, h5, h6⟩ hmv
    obtain ⟨c, x0, dx, facet, f, nn, hf, k1, k2⟩ := hmv.times
    obtain ⟨⟨f0, f1⟩, -⟩ := CppRounded.findFacet_range hA hf
    have hle : t.tStart ≤ t'.tStart := by
      rw [k1]; exact hA.grows _ _ _ h2 (mul_nonneg f0 h3)
    have h6' : ∀ r ∈ t.events.map Prod.snd, A.fl (time - dt) ≤ r ∧ r ≤ t'.tStart := fun r hr => ⟨(h6 r hr).1, (h6 r hr).2.trans hle⟩
    refine ⟨h1.trans hle, by rw [k1]; exact hA.mulAdd _ _ _, ?_, ?_, ?_⟩
    · have : 0 ≤ A.fl (1 - f) := by rw [← hA.zero]; exact hA.mono _ _ (by linarith)
      rw [k2, ← hA.zero]; exact hA.mono _ _ (mul_nonneg this h3)
    · rcases hmv.events with he | ⟨q, he⟩
      · rw [he]; exact h5
      · rw [he, List.map_append, List.pairwise_append]
        refine ⟨h5, by simp, ?_⟩
        intro a ha b hb
        simp only [List.map_cons, List.map_nil, List.mem_singleton] at hb
        rw [hb]; exact (h6' a ha).2
    · rcases hmv.events with he | ⟨q, he⟩
      · rw [he]; exact h6'
      · rw [he, List.map_append]
        intro r hr
        rcases List.mem_append.1 hr with hr | hr
        · exact h6' r hr
        · simp only [List.map_cons, List.map_nil, List.mem_singleton] at hr
          rw [hr]; exact ⟨h1.trans hle, le_rfl⟩
  have := track_rule (P := fun _ t => t.part.cell = t.cell ∧ T t) (Q := T) (fun _ _ _ t t' ht hc => by
      have hmv := crossOnce_moved hbc ht.1 hc
      obtain ⟨c, -, h3, -⟩ := hmv.cell
      exact ⟨(h3 rfl).1, step _ _ _ ht.2 hmv⟩)
    (fun _ _ _ t t' ht hc => step _ _ _ ht.2 (crossOnce_moved hbc ht.1 hc)) (fun _ t ht _ => ht.2) n _ _ _ s
    ⟨rfl, le_rfl, hA.idem _, hdt, by simp [CppRounded.startTrk], by simp [CppRounded.startTrk]⟩ ht
  exact ⟨this.2.2.2.1, fun t ht => (this.2.2.2.2 t ht).1⟩

/-! ### Exact arithmetic -/

namespace CppRounded

theorem findFacet_exact (g : Nat) (c : CppCell K) (x0 dx : Vec K g) : findFacet cExactly g c x0 dx = cppFindFacet g c x0 dx := by
  unfold findFacet cppFindFacet
  split
  · rfl
  · rfl
  · rfl
  · rename_i h3 h2 h1
    split
    · exact (h3 _ _ rfl HEq.rfl HEq.rfl).elim
    · exact (h2 _ _ rfl HEq.rfl HEq.rfl).elim
    · exact (h1 _ _ rfl HEq.rfl HEq.rfl).elim
    · rfl

theorem crossOnce_exact (h : g ≤ p) (L : Layout K p) (M : CppMesh K) (bc : Int → τ → BCall K g p ρ → Except Err (τ × Part K p ρ))
    (sc : Scratch K) (s : Trk K p τ ρ) : crossOnce cExactly h L M bc sc s = cppCrossOnce h L M bc sc s := by
  unfold crossOnce cppCrossOnce
  simp only [findFacet_exact]
  rfl

theorem track_exact (h : g ≤ p) (L : Layout K p) (M : CppMesh K) (bc : Int → τ → BCall K g p ρ → Except Err (τ × Part K p ρ)) (n : Nat)
    (sc : Scratch K) (s : Trk K p τ ρ) : track cExactly h L M bc n sc s = cppTrack h L M bc n sc s := by
  induction n generalizing sc s with
  | zero => unfold track cppTrack; rfl
  | succ n ih =>
    unfold track cppTrack
    simp only [crossOnce_exact, ih]
    rfl

end CppRounded

/-- C134.  In exact arithmetic the compiled mover in machine arithmetic is the one of the other theorems. -/
theorem C134_compiled_exact (h : g ≤ p) (L : Layout K p) (M : CppMesh K) (bc : Int → τ → BCall K g p ρ → Except Err (τ × Part K p ρ))
    (n : Nat) (time dt qmdt : K) (E : Part K p ρ → Option (Vec K p)) (st : (τ × Vec K p) × Scratch K) (q : Part K p ρ) :
    CppRounded.move cExactly h L M bc n time dt qmdt E st q = cppMoveCharged h L M bc n time dt qmdt E st q := by
  unfold CppRounded.move cppMoveCharged
  simp only [CppRounded.track_exact]
  rfl

/-! ### Concrete cases

The machine numbers of Props/Rounded.lean, with and without fused operations. -/

theorem separate_rounding {fl : K → K} {dot : (g : Nat) → Vec K g → Vec K g → K} {inside : Nat → List K → List Nat → List K → Except Err Bool}
    (mono : ∀ a b, a ≤ b → fl a ≤ fl b) (idem : ∀ a, fl (fl a) = fl a) (zero : fl 0 = 0) (one : fl 1 = 1)
    (hd : ∀ g u v, fl (dot g u v) = dot g u v) : IsCRounding (separate fl dot inside) where
  mono := mono
  idem := idem
  zero := zero
  one := one
  dot := hd
  mulAdd _ _ _ := idem _
  grows a b c ha h := by
    have ha : fl a = a := ha
    have h1 : 0 ≤ fl (b * c) := by rw [← zero]; exact mono _ _ h
    show a ≤ fl (a + fl (b * c))
    calc a = fl a := ha.symm
      _ ≤ _ := mono _ _ (by linarith)

theorem fused_rounding {fl : K → K} {dot : (g : Nat) → Vec K g → Vec K g → K} {inside : Nat → List K → List Nat → List K → Except Err Bool}
    (mono : ∀ a b, a ≤ b → fl a ≤ fl b) (idem : ∀ a, fl (fl a) = fl a) (zero : fl 0 = 0) (one : fl 1 = 1)
    (hd : ∀ g u v, fl (dot g u v) = dot g u v) : IsCRounding (fused fl dot inside) where
  mono := mono
  idem := idem
  zero := zero
  one := one
  dot := hd
  mulAdd _ _ _ := idem _
  grows a b c ha h := by
    have ha : fl a = a := ha
    show a ≤ fl (a + b * c)
    calc a = fl a := ha.symm
      _ ≤ _ := mono _ _ (by linarith)

def coarseC : CArith ℚ := separate nearest (fun _ u v => nearest (dot u v)) (fun g => isInsideVertices g g)

def coarseF : CArith ℚ := fused nearest (fun _ u v => nearest (dot u v)) (fun g => isInsideVertices g g)

theorem coarseC_rounding : IsCRounding coarseC :=
  separate_rounding coarse_rounding.mono coarse_rounding.idem coarse_rounding.zero coarse_rounding.one (fun _ _ _ => nearest_idem _)

theorem coarseF_rounding : IsCRounding coarseF :=
  fused_rounding coarse_rounding.mono coarse_rounding.idem coarse_rounding.zero coarse_rounding.one (fun _ _ _ => nearest_idem _)

def cppStep (A : CArith ℚ) : Except Err (((Unit × Vec ℚ 1) × Scratch ℚ) × Part ℚ 1 Nat × List (Part ℚ 1 Nat × ℚ)) :=
  CppRounded.move A (le_refl 1) layoutX demoLineCpp demoBC 10 5 1 1 (fun _ => some ![-1]) (((), ![0]), fun _ => 99)
    (demoPart (1/2) (-1/4) 0 true)

def cppStepView (r : Except Err (((Unit × Vec ℚ 1) × Scratch ℚ) × Part ℚ 1 Nat × List (Part ℚ 1 Nat × ℚ))) : Except Err (List ℚ) :=
  demoView (r.map (fun t => (t.1.1, t.2)))

example : cppStepView (cppStep coarseC) = .ok [1/2, 0, 5/4, 0, 0, 1, 5] := by decide +kernel

example : cppStepView (cppStep coarseF) = .ok [1/2, 0, 5/4, 0, 0, 1, 5] := by decide +kernel

/-- Non-vacuity of `C134_compiled_labels`, `C134_compiled_times_partial` and `C134_compiled_fraction`. -/
example : ∃ st' q' evs, cppStep coarseF = .ok (st', q', evs) ∧ evs ≠ [] ∧ q'.crossings ≤ 10 ∧
    (evs.map Prod.snd).Pairwise (· ≤ ·) ∧ ∀ t ∈ evs.map Prod.snd, 4 ≤ t := by
  have h : cppStepView (cppStep coarseF) = .ok [1/2, 0, 5/4, 0, 0, 1, 5] := by decide +kernel
  cases e : cppStep coarseF with
  | error x => rw [e] at h; cases h
  | ok r =>
    obtain ⟨st', q', evs⟩ := r
    have h1 := C134_compiled_labels demoBC_keepsCell e
    have h2 := C134_compiled_times_partial coarseF_rounding demoBC_keepsCell (by norm_num) e
    have h3 : coarseF.fl (5 - 1) = 4 := by decide +kernel
    refine ⟨st', q', evs, rfl, ?_, h1.1, h2.1, by rw [h3] at h2; exact h2.2⟩
    rintro rfl
    rw [e] at h
    simp [cppStepView, demoView, Except.map] at h

example : ∃ facet f n, CppRounded.findFacet coarseC 1 ⟨[-1, 0, 0, 1, 0, 0], [0, 1]⟩ ![1/2] ![3/4] = .ok (facet, f, n) ∧
    (0 ≤ f ∧ f ≤ 1) ∧ -1 ≤ facet ∧ facet ≤ (1 : Nat) := by
  cases e : CppRounded.findFacet coarseC 1 ⟨[-1, 0, 0, 1, 0, 0], [0, 1]⟩ ![1/2] ![3/4] with
  | error x =>
    have h : (CppRounded.findFacet coarseC 1 ⟨[-1, 0, 0, 1, 0, 0], [0, 1]⟩ ![1/2] ![3/4]).map (fun r => r.1) = .ok 1 := by decide +kernel
    rw [e] at h; cases h
  | ok r => exact ⟨r.1, r.2.1, r.2.2, rfl, C134_compiled_fraction coarseC_rounding e⟩

/-- C134 is false for the end of the step in compiled code too, with fused operations. -/
theorem C134_false_compiled_late : ∃ (A : CArith ℚ) (M : CppMesh ℚ) (q : Part ℚ 1 Nat) (time dt : ℚ), IsCRounding A ∧
    CppRounded.isInside A 1 M q.x q.cell = .ok true ∧ (∀ y ∈ [time, dt, q.x 0, q.u 0], A.fl y = y) ∧ 0 ≤ dt ∧
    ∃ t, (CppRounded.move A (le_refl 1) layoutX M demoBC 10 time dt 1 (fun _ => none) (((), ![0]), fun _ => 99) q).map
      (fun r => r.2.2.map Prod.snd) = .ok [t] ∧ time < t :=
  ⟨coarseF, lineCpp (fun i => 3 * i) 1 (fun _ => 2), demoPart (5/4) 4 0 true, 5, 1/2, coarseF_rounding,
    by decide +kernel, by decide +kernel, by norm_num, 6, by decide +kernel, by norm_num⟩

/-- C134 is false for the errors in compiled code too: the program ends with `exit` because of a rounding error. -/
theorem C134_false_compiled_exit : ∃ (A : CArith ℚ) (M : CppMesh ℚ) (q : Part ℚ 1 Nat) (time dt : ℚ), IsCRounding A ∧
    CppRounded.isInside A 1 M q.x q.cell = .ok true ∧ (∀ y ∈ [time, dt, q.x 0, q.u 0], A.fl y = y) ∧
    (CppRounded.move A (le_refl 1) layoutX M demoBC 10 time dt 1 (fun _ => none) (((), ![0]), fun _ => 99) q).map (fun _ => ()) =
      .error .exit ∧
    (cppMoveCharged (le_refl 1) layoutX M demoBC 10 time dt 1 (fun _ => none) (((), ![0]), fun _ => 99) q).map (fun _ => ()) = .ok () :=
  ⟨coarseF, lineCpp (fun i => (-3) + 11 / 2 * i) 1 (fun _ => 2), demoPart (-9/4) 10 0 true, 5, 1/2, coarseF_rounding,
    by decide +kernel, by decide +kernel, by decide +kernel, by decide +kernel⟩

end Dt
