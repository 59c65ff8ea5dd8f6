import Verif.Model.Track
import Verif.Lemmas.Geometry

namespace Dt
variable {K : Type} [Field K] [LinearOrder K] [IsStrictOrderedRing K] {g p : Nat} {τ ρ : Type}

/-! ### The fraction is always between 0 and 1 -/

theorem testFacet_range {c : Cell K g} {x0 dx : Vec K g} {k w : Int} {acc r : Int × K}
    (e : testFacet c x0 dx k w acc = .ok r) (h : 0 ≤ acc.2 ∧ acc.2 ≤ 1) : 0 ≤ r.2 ∧ r.2 ≤ 1 := by
  unfold testFacet at e
  cases hn : pyGet c.normals k with
  | error e' => rw [hn] at e; cases e
  | ok n =>
    rw [hn] at e
    simp only [bind, Except.bind] at e
    split at e
    · rename_i hpos
      cases hv : pyGet c.verts w with
      | error e' => rw [hv] at e; cases e
      | ok v =>
        rw [hv] at e
        simp only at e
        have hfl := flip_nonneg (dot n (v - x0))
        unfold flip at hfl
        generalize (if dot n (v - x0) < 0 then -dot n (v - x0) else dot n (v - x0)) = D at e hfl
        split at e
        · rename_i hlt
          cases e
          refine ⟨div_nonneg hfl hpos.le, ?_⟩
          have := (div_lt_iff₀ hpos).2 hlt
          exact this.le.trans h.2
        · cases e; exact h
    · cases e; exact h

theorem findFacet_range {M : Mesh K g} {x0 dx : Vec K g} {ci facet : Int} {f : K}
    {n : Option (Vec K g)} (e : M.findFacet x0 dx ci = .ok (facet, f, n)) : 0 ≤ f ∧ f ≤ 1 := by
  have multi : ∀ (c : Cell K g), findFacetMulti c x0 dx = .ok (facet, f, n) → 0 ≤ f ∧ f ≤ 1 := by
    intro c e
    unfold findFacetMulti at e
    split at e
    · cases e; exact ⟨zero_le_one, le_refl _⟩
    · cases ht : testAll c x0 dx (facetTests g) (noFacet, 1) with
      | error e' => rw [ht] at e; cases e
      | ok r =>
        rw [ht] at e
        simp only [bind, Except.bind] at e
        split at e
        · cases e
        · rename_i hr
          cases hn : pyGet c.normals r.1 with
          | error e' => rw [hn] at e; cases e
          | ok nn =>
            rw [hn] at e
            simp only [pure, Except.pure, Except.ok.injEq, Prod.mk.injEq] at e
            obtain ⟨-, rfl, -⟩ := e
            rw [not_or, not_lt, not_lt] at hr
            exact ⟨hr.2, hr.1⟩
  have one : ∀ (c : Cell K g), findFacet1 c x0 dx = .ok (facet, f, n) → 0 ≤ f ∧ f ≤ 1 := by
    intro c e
    unfold findFacet1 at e
    split at e
    · cases e; exact ⟨zero_le_one, le_refl _⟩
    · cases ht : testFacet c x0 dx 0 0 (noFacet, 1) with
      | error e' => rw [ht] at e; cases e
      | ok r =>
        have hr := testFacet_range ht ⟨zero_le_one, le_refl _⟩
        rw [ht] at e
        simp only [bind, Except.bind] at e
        split at e
        · cases hn : pyGet c.normals r.1 with
          | error e' => rw [hn] at e; cases e
          | ok nn =>
            rw [hn] at e
            simp only [pure, Except.pure, Except.ok.injEq, Prod.mk.injEq] at e
            obtain ⟨-, rfl, -⟩ := e
            exact hr
        · cases ht1 : testFacet c x0 dx 1 1 (noFacet, 1) with
          | error e' => rw [ht1] at e; cases e
          | ok r1 =>
            have hr1 := testFacet_range ht1 ⟨zero_le_one, le_refl _⟩
            rw [ht1] at e
            simp only at e
            split at e
            · cases hn : pyGet c.normals r1.1 with
              | error e' => rw [hn] at e; cases e
              | ok nn =>
                rw [hn] at e
                simp only [pure, Except.pure, Except.ok.injEq, Prod.mk.injEq] at e
                obtain ⟨-, rfl, -⟩ := e
                exact hr1
            · split at e
              · cases e
              · cases hn : pyGet c.normals r1.1 with
                | error e' => rw [hn] at e; cases e
                | ok nn =>
                  rw [hn] at e
                  simp only [pure, Except.pure, Except.ok.injEq, Prod.mk.injEq] at e
                  obtain ⟨-, rfl, -⟩ := e
                  exact hr1
  unfold Mesh.findFacet at e
  split at e
  · cases e; exact ⟨zero_le_one, le_refl _⟩
  · cases hl : M.lookup ci with
    | error e' => rw [hl] at e; cases e
    | ok c =>
      rw [hl] at e
      simp only [bind, Except.bind] at e
      split at e
      · exact multi c e
      · exact multi c e
      · exact one c e

/-! ### One crossing -/

/-- The callback as called at a crossing: either the facet is not marked, or it is and
the callback was called on the record with the crossing point as start. -/
structure Crossed (h : g ≤ p) (M : Mesh K g) (v : Variant)
    (bc : Int → τ → BCall K g p ρ → Except Err (τ × Part K p ρ))
    (s s' : Trk K p τ ρ) (brk : Bool) : Prop where
  ex : ∃ (cFacet mFacet new : Int) (f : K) (n : Option (Vec K g)) (c : Cell K g)
      (st1 : τ) (q q1 : Part K p ρ) (evs : List (Part K p ρ × K)),
    M.findFacet (proj h s.part.x0) (proj h (s.part.x - s.part.x0)) s.cell = .ok (cFacet, f, n) ∧
    cFacet ≠ -1 ∧ M.cell s.cell = some c ∧ pyGet c.facets cFacet = .ok mFacet ∧
    mFacet ≠ s.last ∧ pyGet c.neighbors cFacet = .ok new ∧
    q = { s.part with x0 := s.part.x0 + f • (s.part.x - s.part.x0) } ∧
    (if M.marker mFacet = 0 then st1 = s.st ∧ q1 = q ∧ evs = []
     else bc (M.marker mFacet) s.st ⟨q, mFacet, f, n,
        if v.sharesDx then s.part.x - s.part.x0 else s.dxS⟩ = .ok (st1, q1) ∧
        evs = if s.part.traj then [(q, s.tStart + f * s.rem)] else []) ∧
    s'.st = st1 ∧ s'.count = s.count + 1 ∧ s'.last = mFacet ∧
    s'.tStart = s.tStart + f * s.rem ∧ s'.rem = s.rem - f * s.rem ∧
    s'.dxS = (if v.sharesDx then s.part.x - s.part.x0 else s.dxS) ∧
    s'.events = s.events ++ evs ∧
    (if new = -1 then s'.cell = s.cell ∧ brk = q1.del ∧
        s'.part = (if q1.del then { q1 with cell := -1 } else q1)
     else s'.cell = new ∧ brk = false ∧ s'.part = { q1 with cell := new })

omit [IsStrictOrderedRing K] in
theorem crossOnce_ok {h : g ≤ p} {M : Mesh K g} {v : Variant}
    {bc : Int → τ → BCall K g p ρ → Except Err (τ × Part K p ρ)} {s s' : Trk K p τ ρ} {brk : Bool}
    (e : crossOnce h M v bc s = .ok (s', brk)) : Crossed h M v bc s s' brk := by
  have next : ∀ (c : Cell K g) (cFacet : Int) (t t' : Trk K p τ ρ),
      nextCell c cFacet t = .ok (t', brk) → ∃ new, pyGet c.neighbors cFacet = .ok new ∧
      t'.st = t.st ∧ t'.count = t.count ∧ t'.last = t.last ∧ t'.tStart = t.tStart ∧
      t'.rem = t.rem ∧ t'.dxS = t.dxS ∧ t'.events = t.events ∧
      (if new = -1 then t'.cell = t.cell ∧ brk = t.part.del ∧
        t'.part = (if t.part.del then { t.part with cell := -1 } else t.part)
      else t'.cell = new ∧ brk = false ∧ t'.part = { t.part with cell := new }) := by
    intro c cFacet t t' e
    unfold nextCell at e
    cases hn : pyGet c.neighbors cFacet with
    | error e' => rw [hn] at e; cases e
    | ok new =>
      rw [hn] at e
      simp only [bind, Except.bind, noCell] at e
      refine ⟨new, rfl, ?_⟩
      by_cases h1 : new = -1
      · rw [if_pos h1] at e ⊢
        by_cases h2 : t.part.del = true
        · rw [if_pos h2] at e ⊢
          cases e
          exact ⟨rfl, rfl, rfl, rfl, rfl, rfl, rfl, rfl, h2.symm, rfl⟩
        · rw [if_neg h2] at e ⊢
          cases e
          refine ⟨rfl, rfl, rfl, rfl, rfl, rfl, rfl, rfl, ?_, rfl⟩
          simpa using h2
      · rw [if_neg h1] at e ⊢
        cases e
        exact ⟨rfl, rfl, rfl, rfl, rfl, rfl, rfl, rfl, rfl, rfl⟩
  unfold crossOnce at e
  dsimp only at e
  cases hf : M.findFacet (proj h s.part.x0) (proj h (s.part.x - s.part.x0)) s.cell with
  | error e' => rw [hf] at e; cases e
  | ok r =>
    obtain ⟨cFacet, f, n⟩ := r
    rw [hf] at e
    simp only [bind, Except.bind, noFacet] at e
    split at e
    · cases e
    · rename_i hne
      cases hl : M.cell s.cell with
      | none =>
        have : M.lookup s.cell = .error .key := by unfold Mesh.lookup; rw [hl]
        rw [this] at e; cases e
      | some c =>
        have : M.lookup s.cell = .ok c := by unfold Mesh.lookup; rw [hl]
        rw [this] at e
        simp only at e
        cases hm : pyGet c.facets cFacet with
        | error e' => rw [hm] at e; cases e
        | ok mFacet =>
          rw [hm] at e
          simp only at e
          split at e
          · cases e
          · rename_i hlast
            by_cases hmk : M.marker mFacet = 0
            · rw [if_neg (by simp [hmk])] at e
              obtain ⟨new, hn, k1, k2, k3, k4, k5, k6, k7, k8⟩ := next _ _ _ _ e
              refine ⟨cFacet, mFacet, new, f, n, c, s.st, _, _, [], hf, hne, hl, hm, hlast, hn,
                rfl, ?_, k1, k2, k3, k4, k5, k6, by simpa using k7, k8⟩
              rw [if_pos hmk]
              exact ⟨rfl, rfl, rfl⟩
            · rw [if_pos hmk] at e
              unfold atMarked at e
              dsimp only at e
              generalize hs1 : ({ s with
                count := s.count + 1
                tStart := s.tStart + f * s.rem
                rem := s.rem - f * s.rem
                part := { s.part with x0 := s.part.x0 + f • (s.part.x - s.part.x0) }
                last := mFacet
                dxS := if v.sharesDx = true then s.part.x - s.part.x0 else s.dxS } : Trk K p τ ρ)
                = s1 at e
              cases hd : crossEvents v s1 with
              | error e' => rw [hd] at e; cases e
              | ok evs =>
                rw [hd] at e
                simp only [bind, Except.bind] at e
                split at e
                · cases e
                · rename_i s2 hs2
                  split at hs2
                  · cases hs2
                  · rename_i r hbc
                    obtain ⟨st1, q1⟩ := r
                    simp only [pure, Except.pure, Except.ok.injEq] at hs2
                    subst hs2
                    obtain ⟨new, hn, k1, k2, k3, k4, k5, k6, k7, k8⟩ := next _ _ _ _ e
                    subst hs1
                    refine ⟨cFacet, mFacet, new, f, n, c, st1, _, q1, evs, hf, hne, hl, hm, hlast,
                      hn, rfl, ?_, k1, k2, k3, k4, k5, k6, k7, k8⟩
                    rw [if_neg hmk]
                    refine ⟨hbc, ?_⟩
                    unfold crossEvents at hd
                    dsimp only at hd
                    split at hd
                    · rename_i htr
                      rw [if_pos htr]
                      split at hd
                      · cases hd; rfl
                      · cases hd
                    · rename_i htr
                      rw [if_neg htr]
                      cases hd; rfl

/-! ### Induction over the loop -/

omit [IsStrictOrderedRing K] in
/-- Invariants of the tracking loop: `P` is kept by every crossing; the loop ends
inside the cell or by a break.  `N s s'`: number of crossings made. -/
theorem track_induct {h : g ≤ p} {M : Mesh K g} {v : Variant}
    {bc : Int → τ → BCall K g p ρ → Except Err (τ × Part K p ρ)} (P : Trk K p τ ρ → Prop)
    (hstep : ∀ s s' brk, P s → M.isInside (proj h s.part.x) s.cell = .ok false →
      Crossed h M v bc s s' brk → P s') (left : Nat) :
    ∀ (s s' : Trk K p τ ρ), P s → track h M v bc left s = .ok s' → P s' ∧
      s.count ≤ s'.count ∧ s'.count ≤ s.count + left ∧
      (M.isInside (proj h s'.part.x) s'.cell = .ok true ∨
        ∃ s0, P s0 ∧ Crossed h M v bc s0 s' true) := by
  induction left with
  | zero =>
    intro s s' hP e
    unfold track at e
    cases hi : M.isInside (proj h s.part.x) s.cell with
    | error e' => rw [hi] at e; cases e
    | ok b =>
      rw [hi] at e
      cases b with
      | true =>
        simp only [bind, Except.bind, if_true, Except.ok.injEq] at e
        subst e
        exact ⟨hP, Nat.le_refl _, Nat.le_refl _, .inl hi⟩
      | false => simp [bind, Except.bind] at e
  | succ left ih =>
    intro s s' hP e
    unfold track at e
    cases hi : M.isInside (proj h s.part.x) s.cell with
    | error e' => rw [hi] at e; cases e
    | ok b =>
      rw [hi] at e
      cases b with
      | true =>
        simp only [bind, Except.bind, if_true, Except.ok.injEq] at e
        subst e
        exact ⟨hP, Nat.le_refl _, by omega, .inl hi⟩
      | false =>
        simp only [bind, Except.bind, Bool.false_eq_true, if_false] at e
        cases hc : crossOnce h M v bc s with
        | error e' => rw [hc] at e; cases e
        | ok r =>
          obtain ⟨s1, brk⟩ := r
          have hcr := crossOnce_ok hc
          rw [hc] at e
          simp only at e
          have hcount : s1.count = s.count + 1 := by
            obtain ⟨_, _, _, _, _, _, _, _, _, _, _, _, _, _, _, _, _, _, _, h1, _⟩ := hcr.ex
            exact h1
          have hP1 := hstep s s1 brk hP hi hcr
          cases brk with
          | true =>
            simp only [if_true, Except.ok.injEq] at e
            subst e
            exact ⟨hP1, by omega, by omega, .inr ⟨s, hP, hcr⟩⟩
          | false =>
            simp only [Bool.false_eq_true, if_false] at e
            obtain ⟨a, b, c, d⟩ := ih s1 s' hP1 e
            exact ⟨a, by omega, by omega, d⟩

end Dt
