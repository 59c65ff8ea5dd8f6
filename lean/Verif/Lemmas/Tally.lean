import Verif.Lemmas.Track
import Mathlib.Tactic.FinCases

/-! # The index returned by the facet search -/

namespace Dt
variable {K : Type} [Field K] [LinearOrder K] [IsStrictOrderedRing K] {g : Nat}

omit [IsStrictOrderedRing K] in
theorem testFacet_index {c : Cell K g} {x0 dx : Vec K g} {k w : Int} {acc r : Int × K}
    (e : testFacet c x0 dx k w acc = .ok r) : r.1 = k ∨ r.1 = acc.1 := by
  unfold testFacet at e
  cases hn : pyGet c.normals k with
  | error e' => rw [hn] at e; cases e
  | ok n =>
    rw [hn] at e
    simp only [bind, Except.bind] at e
    split at e
    · cases hv : pyGet c.verts w with
      | error e' => rw [hv] at e; cases e
      | ok v =>
        rw [hv] at e
        simp only at e
        generalize (if dot n (v - x0) < 0 then -dot n (v - x0) else dot n (v - x0)) = D at e
        split at e
        · cases e; exact .inl rfl
        · cases e; exact .inr rfl
    · cases e; exact .inr rfl

omit [IsStrictOrderedRing K] in
theorem testAll_index {c : Cell K g} {x0 dx : Vec K g} {l : List (Int × Int)} (hl : ∀ kw ∈ l, 0 ≤ kw.1) :
    ∀ {acc r : Int × K}, testAll c x0 dx l acc = .ok r → 0 ≤ r.1 ∨ r.1 = acc.1 := by
  induction l with
  | nil => intro acc r e; cases e; exact .inr rfl
  | cons kw l ih =>
    intro acc r e
    obtain ⟨k, w⟩ := kw
    simp only [testAll] at e
    cases h1 : testFacet c x0 dx k w acc with
    | error e' => rw [h1] at e; cases e
    | ok a =>
      rw [h1] at e
      rcases ih (fun kw hkw => hl kw (by simp [hkw])) e with h | h
      · exact .inl h
      · rcases testFacet_index h1 with h2 | h2
        · left; rw [h, h2]; exact hl (k, w) (by simp)
        · right; rw [h, h2]

omit [IsStrictOrderedRing K] in
/-- The facet search returns NO_FACET or a number that is not negative. -/
theorem findFacet_index {M : Mesh K g} {x0 dx : Vec K g} {ci facet : Int} {f : K} {n : Option (Vec K g)}
    (e : M.findFacet x0 dx ci = .ok (facet, f, n)) : facet = -1 ∨ 0 ≤ facet := by
  have multi : ∀ (c : Cell K g), findFacetMulti c x0 dx = .ok (facet, f, n) → facet = -1 ∨ 0 ≤ facet := by
    intro c e
    unfold findFacetMulti at e
    split at e
    · cases e; exact .inl rfl
    · cases ht : testAll c x0 dx (facetTests g) (noFacet, 1) with
      | error e' => rw [ht] at e; cases e
      | ok r =>
        rw [ht] at e
        simp only [bind, Except.bind] at e
        split at e
        · cases e
        · cases hn : pyGet c.normals r.1 with
          | error e' => rw [hn] at e; cases e
          | ok nn =>
            rw [hn] at e
            simp only [pure, Except.pure, Except.ok.injEq, Prod.mk.injEq] at e
            obtain ⟨rfl, -, -⟩ := e
            have hl : ∀ kw ∈ facetTests g, 0 ≤ kw.1 := by
              intro kw hkw
              unfold facetTests at hkw
              split at hkw
              · fin_cases hkw <;> decide
              · fin_cases hkw <;> decide
              · fin_cases hkw <;> decide
            exact (testAll_index hl ht).symm
  have one : ∀ (c : Cell K g), findFacet1 c x0 dx = .ok (facet, f, n) → facet = -1 ∨ 0 ≤ facet := by
    intro c e
    unfold findFacet1 at e
    split at e
    · cases e; exact .inl rfl
    · cases ht : testFacet c x0 dx 0 0 (noFacet, 1) with
      | error e' => rw [ht] at e; cases e
      | ok r =>
        rw [ht] at e
        simp only [bind, Except.bind] at e
        split at e
        · rename_i h0
          cases hn : pyGet c.normals r.1 with
          | error e' => rw [hn] at e; cases e
          | ok nn =>
            rw [hn] at e
            simp only [pure, Except.pure, Except.ok.injEq, Prod.mk.injEq] at e
            right; rw [← e.1, h0]
        · cases ht1 : testFacet c x0 dx 1 1 (noFacet, 1) with
          | error e' => rw [ht1] at e; cases e
          | ok r1 =>
            have hr1 := testFacet_index ht1
            rw [ht1] at e
            simp only at e
            have fin : r1.1 = facet → facet = -1 ∨ 0 ≤ facet := by
              intro hx
              rw [← hx]
              rcases hr1 with h | h
              · right; rw [h]; decide
              · left; exact h
            split at e
            · cases hn : pyGet c.normals r1.1 with
              | error e' => rw [hn] at e; cases e
              | ok nn =>
                rw [hn] at e
                simp only [pure, Except.pure, Except.ok.injEq, Prod.mk.injEq] at e
                exact fin e.1
            · split at e
              · cases e
              · cases hn : pyGet c.normals r1.1 with
                | error e' => rw [hn] at e; cases e
                | ok nn =>
                  rw [hn] at e
                  simp only [pure, Except.pure, Except.ok.injEq, Prod.mk.injEq] at e
                  exact fin e.1
  unfold Mesh.findFacet at e
  split at e
  · cases e; exact .inl rfl
  · cases hl : M.lookup ci with
    | error e' => rw [hl] at e; cases e
    | ok c =>
      rw [hl] at e
      simp only [bind, Except.bind] at e
      split at e
      · exact multi c e
      · exact multi c e
      · exact one c e

end Dt
