import Verif.Model.UserBC
import Verif.Lemmas.Track
import Verif.Spec.UserBC
import Mathlib.Tactic.IntervalCases

/-! # Names of boundary functions; the direction in which a facet is crossed -/

set_option linter.unusedSectionVars false

namespace Dt

theorem append_left_eq {a b c : String} : a ++ b = a ++ c ↔ b = c := by
  rw [← String.toList_inj, ← String.toList_inj]; simp

theorem split_for {b sp : List Char} {x y : List Char} (hx : ∀ k < x.length + "_for_".toList.length + y.length,
      "_for_".toList <+: ((x ++ "_for_".toList ++ y).drop k) → k = x.length)
    (h : b ++ "_for_".toList ++ sp = x ++ "_for_".toList ++ y) : b = x ∧ sp = y := by
  have hl := congrArg List.length h
  simp only [List.length_append] at hl
  have h5 : "_for_".toList.length = 5 := by decide
  have hk := hx b.length (by omega) (by
    rw [← h, List.append_assoc, List.drop_left]
    exact List.prefix_append _ _)
  have h1 : b = x := by
    have := congrArg (List.take b.length) h
    rw [List.append_assoc, List.take_left, hk, List.append_assoc, List.take_left] at this
    exact this
  subst h1
  rw [List.append_assoc, List.append_assoc] at h
  have := List.append_cancel_left (List.append_cancel_left h)
  exact ⟨rfl, this⟩

/-- The name with the boundary and the species determines both, for names in which `_for_` occurs once. -/
theorem bc_name {b sp x y : String} (hx : ∀ k < x.toList.length + "_for_".toList.length + y.toList.length,
      "_for_".toList <+: ((x.toList ++ "_for_".toList ++ y.toList).drop k) → k = x.toList.length) :
    "bc_at_" ++ b ++ "_for_" ++ sp = "bc_at_" ++ x ++ "_for_" ++ y ↔ b = x ∧ sp = y := by
  constructor
  · intro h
    rw [← String.toList_inj] at h
    simp only [String.toList_append, List.append_assoc] at h
    have h' := List.append_cancel_left h
    obtain ⟨h1, h2⟩ := split_for (b := b.toList) (sp := sp.toList) (x := x.toList) (y := y.toList) hx
      (by simpa only [List.append_assoc] using h')
    exact ⟨String.toList_inj.1 h1, String.toList_inj.1 h2⟩
  · rintro ⟨rfl, rfl⟩; rfl

theorem bc_neutral_xmin {b sp : String} :
    "bc_at_" ++ b ++ "_for_" ++ sp = "bc_at_xmin_for_neutral_H" ↔ b = "xmin" ∧ sp = "neutral_H" :=
  bc_name (x := "xmin") (y := "neutral_H") (by decide)

theorem bc_neutral_rmin {b sp : String} :
    "bc_at_" ++ b ++ "_for_" ++ sp = "bc_at_rmin_for_neutral_H" ↔ b = "rmin" ∧ sp = "neutral_H" :=
  bc_name (x := "rmin") (y := "neutral_H") (by decide)

theorem bc_test_rmin {b sp : String} :
    "bc_at_" ++ b ++ "_for_" ++ sp = "bc_at_rmin_for_test_electrons" ↔ b = "rmin" ∧ sp = "test_electrons" :=
  bc_name (x := "rmin") (y := "test_electrons") (by decide)

theorem bc_ne_default {b sp s : String} (h : s.toList.head? = some 'd') : "bc_at_" ++ b ++ "_for_" ++ sp ≠ s := by
  rintro rfl
  simp at h

theorem default_ne_bc {b s : String} (h : s.toList.head? = some 'b') : "default_bc_at_" ++ b ≠ s := by
  rintro rfl
  simp at h

theorem default_at_ne {b : String} : "default_bc_at_" ++ b ≠ "default_bc" := by
  intro h
  have := congrArg String.length h
  simp only [String.length_append] at this
  have h1 : "default_bc_at_".length = 14 := by decide
  have h2 : "default_bc".length = 10 := by decide
  omega

theorem default_at {b x : String} : "default_bc_at_" ++ b = "default_bc_at_" ++ x ↔ b = x := append_left_eq

theorem attrs_nil (s : String) : attrs [] s = none := rfl

theorem attrs_cons (k : String) (a : Act) (l : List (String × Act)) (s : String) :
    attrs ((k, a) :: l) s = if s = k then some a else attrs l s := by
  unfold attrs
  rw [List.lookup_cons]
  by_cases h : s = k
  · simp [h]
  · rw [if_neg h, show (s == k) = false from by simpa using h]

/-! ### The facet found is crossed outwards -/

section
variable {K : Type} [Field K] [LinearOrder K] [IsStrictOrderedRing K] {g p : Nat} {τ ρ : Type}

theorem testFacet_towards {c : Cell K g} {x0 dx : Vec K g} {k w : Int} {acc r : Int × K}
    (e : testFacet c x0 dx k w acc = .ok r) :
    r = acc ∨ r.1 = k ∧ ∃ n, pyGet c.normals k = .ok n ∧ 0 < dot n dx := by
  unfold testFacet at e
  cases hn : pyGet c.normals k with
  | error er => rw [hn] at e; cases e
  | ok n =>
    rw [hn] at e
    simp only [bind, Except.bind, pure, Except.pure] at e
    split at e
    · rename_i hpos
      cases hv : pyGet c.verts w with
      | error er => rw [hv] at e; cases e
      | ok v =>
        rw [hv] at e
        simp only at e
        generalize (if dot n (v - x0) < 0 then -dot n (v - x0) else dot n (v - x0)) = D at e
        split at e
        · cases e; exact .inr ⟨rfl, n, rfl, hpos⟩
        · cases e; exact .inl rfl
    · cases e; exact .inl rfl

theorem testAll_towards {c : Cell K g} {x0 dx : Vec K g} : ∀ {l : List (Int × Int)} {acc r : Int × K},
    testAll c x0 dx l acc = .ok r →
    (acc.1 ≠ noFacet → ∃ n, pyGet c.normals acc.1 = .ok n ∧ 0 < dot n dx) →
    r.1 ≠ noFacet → ∃ n, pyGet c.normals r.1 = .ok n ∧ 0 < dot n dx := by
  intro l
  induction l with
  | nil => intro acc r e h; cases e; exact h
  | cons kw l ih =>
    intro acc r e h
    obtain ⟨k, w⟩ := kw
    unfold testAll at e
    cases ht : testFacet c x0 dx k w acc with
    | error er => rw [ht] at e; cases e
    | ok a =>
      rw [ht] at e
      refine ih e ?_
      rcases testFacet_towards ht with rfl | ⟨h1, n, h2, h3⟩
      · exact h
      · intro _; exact ⟨n, by rw [h1]; exact h2, h3⟩

/-- A facet that is found is crossed outwards. -/
theorem findFacet_towards {M : Mesh K g} {x0 dx : Vec K g} {ci facet : Int} {f : K} {n : Option (Vec K g)}
    (e : M.findFacet x0 dx ci = .ok (facet, f, n)) (hf : facet ≠ noFacet) :
    ∃ c nn, M.cell ci = some c ∧ pyGet c.normals facet = .ok nn ∧ 0 < dot nn dx := by
  have multi : ∀ (c : Cell K g), findFacetMulti c x0 dx = .ok (facet, f, n) →
      ∃ nn, pyGet c.normals facet = .ok nn ∧ 0 < dot nn dx := by
    intro c e
    unfold findFacetMulti at e
    split at e
    · cases e; exact absurd rfl hf
    · cases ht : testAll c x0 dx (facetTests g) (noFacet, 1) with
      | error er => rw [ht] at e; cases e
      | ok r =>
        rw [ht] at e
        simp only [bind, Except.bind] at e
        split at e
        · cases e
        · cases hn : pyGet c.normals r.1 with
          | error er => rw [hn] at e; cases e
          | ok nn =>
            rw [hn] at e
            simp only [pure, Except.pure, Except.ok.injEq, Prod.mk.injEq] at e
            obtain ⟨rfl, -, -⟩ := e
            exact testAll_towards ht (fun h => absurd rfl h) hf
  have one : ∀ (c : Cell K g), findFacet1 c x0 dx = .ok (facet, f, n) →
      ∃ nn, pyGet c.normals facet = .ok nn ∧ 0 < dot nn dx := by
    intro c e
    have step : ∀ {k w : Int} {r : Int × K}, testFacet c x0 dx k w (noFacet, 1) = .ok r → r.1 = facet →
        ∃ nn, pyGet c.normals facet = .ok nn ∧ 0 < dot nn dx := by
      intro k w r ht hr
      rcases testFacet_towards ht with rfl | ⟨h1, h2⟩
      · exact absurd hr.symm hf
      · rw [← hr, h1]; exact h2
    unfold findFacet1 at e
    split at e
    · cases e; exact absurd rfl hf
    · cases ht : testFacet c x0 dx 0 0 (noFacet, 1) with
      | error er => rw [ht] at e; cases e
      | ok r =>
        rw [ht] at e
        simp only [bind, Except.bind] at e
        split at e
        · cases hn : pyGet c.normals r.1 with
          | error er => rw [hn] at e; cases e
          | ok nn =>
            rw [hn] at e
            simp only [pure, Except.pure, Except.ok.injEq, Prod.mk.injEq] at e
            exact step ht e.1
        · cases ht1 : testFacet c x0 dx 1 1 (noFacet, 1) with
          | error er => rw [ht1] at e; cases e
          | ok r1 =>
            rw [ht1] at e
            simp only at e
            cases hn : pyGet c.normals r1.1 with
            | error er =>
              rw [hn] at e
              split at e
              · cases e
              · split at e <;> cases e
            | ok nn =>
              rw [hn] at e
              simp only [pure, Except.pure] at e
              split at e
              · simp only [Except.ok.injEq, Prod.mk.injEq] at e
                exact step ht1 e.1
              · split at e
                · cases e
                · simp only [Except.ok.injEq, Prod.mk.injEq] at e
                  exact step ht1 e.1
  unfold Mesh.findFacet at e
  split at e
  · cases e; exact absurd rfl hf
  · unfold Mesh.lookup at e
    cases hc : M.cell ci with
    | none => rw [hc] at e; cases e
    | some c =>
      rw [hc] at e
      simp only [bind, Except.bind] at e
      refine ⟨c, ?_⟩
      have : ∃ nn, pyGet c.normals facet = .ok nn ∧ 0 < dot nn dx := by
        split at e
        · exact multi c e
        · exact multi c e
        · exact one c e
      obtain ⟨nn, h1, h2⟩ := this
      exact ⟨nn, rfl, h1, h2⟩

theorem track_idle {h : g ≤ p} {M : Mesh K g} {v : Variant}
    {bc : Int → τ → BCall K g p ρ → Except Err (τ × Part K p ρ)} {d : Vec K g} (hd : IdleAhead M bc d) :
    ∀ {n : Nat} {s s' : Trk K p τ ρ} {t : K}, 0 ≤ t → proj h (s.part.x - s.part.x0) = t • d → s.part.del = false →
      track h M v bc n s = .ok s' →
      s'.part.x = s.part.x ∧ s'.part.u = s.part.u ∧ s'.part.del = false ∧ s'.part.rest = s.part.rest ∧
      M.isInside (proj h s.part.x) s'.cell = .ok true := by
  intro n
  induction n with
  | zero =>
    intro s s' t _ _ hdel e
    unfold track at e
    cases hi : M.isInside (proj h s.part.x) s.cell with
    | error er => rw [hi] at e; cases e
    | ok b =>
      rw [hi] at e
      cases b
      · cases e
      · cases e; exact ⟨rfl, rfl, hdel, rfl, hi⟩
  | succ n ih =>
    intro s s' t ht hx hdel e
    unfold track at e
    cases hi : M.isInside (proj h s.part.x) s.cell with
    | error er => rw [hi] at e; cases e
    | ok b =>
      rw [hi] at e
      cases b
      · simp only [bind, Except.bind, Bool.false_eq_true, if_false] at e
        cases hc : crossOnce h M v bc s with
        | error er => rw [hc] at e; cases e
        | ok r =>
          obtain ⟨s1, brk⟩ := r
          rw [hc] at e
          simp only at e
          have key : s1.part.x = s.part.x ∧ s1.part.u = s.part.u ∧ s1.part.del = false ∧ s1.part.rest = s.part.rest ∧ brk = false ∧
              ∃ f : K, f ≤ 1 ∧ s1.part.x0 = s.part.x0 + f • (s.part.x - s.part.x0) := by
            unfold crossOnce at hc
            simp only [bind, Except.bind, pure, Except.pure] at hc
            cases hf : M.findFacet (proj h s.part.x0) (proj h (s.part.x - s.part.x0)) s.cell with
            | error er => rw [hf] at hc; cases hc
            | ok r =>
              obtain ⟨k, f, nn⟩ := r
              rw [hf] at hc
              simp only at hc
              have hf1 := (findFacet_range hf).2
              split at hc
              · cases hc
              · rename_i hk
                obtain ⟨c, n1, e1, e2, e3⟩ := findFacet_towards hf hk
                have hl : M.lookup s.cell = .ok c := by unfold Mesh.lookup; rw [e1]
                rw [hl] at hc
                simp only at hc
                cases hF : pyGet c.facets k with
                | error er => rw [hF] at hc; cases hc
                | ok F =>
                  rw [hF] at hc
                  simp only at hc
                  have hpos : 0 < dot n1 d := by
                    rw [hx, dot_smul] at e3
                    by_contra hcon
                    have := mul_nonpos_of_nonneg_of_nonpos ht (not_lt.1 hcon)
                    linarith
                  split at hc
                  · cases hc
                  · have fin : ∀ {s2 : Trk K p τ ρ}, s2.part.x = s.part.x → s2.part.u = s.part.u →
                        s2.part.del = false → s2.part.rest = s.part.rest → s2.part.x0 = s.part.x0 + f • (s.part.x - s.part.x0) →
                        nextCell c k s2 = .ok (s1, brk) →
                        s1.part.x = s.part.x ∧ s1.part.u = s.part.u ∧ s1.part.del = false ∧ s1.part.rest = s.part.rest ∧ brk = false ∧
                        ∃ f : K, f ≤ 1 ∧ s1.part.x0 = s.part.x0 + f • (s.part.x - s.part.x0) := by
                      intro s2 a1 a2 a3 ar a4 hn
                      unfold nextCell at hn
                      simp only [bind, Except.bind, pure, Except.pure] at hn
                      split at hn
                      · cases hn
                      · split at hn
                        · simp only [a3, Bool.false_eq_true, if_false] at hn
                          cases hn; exact ⟨a1, a2, a3, ar, rfl, f, hf1, a4⟩
                        · cases hn; exact ⟨a1, a2, a3, ar, rfl, f, hf1, a4⟩
                    by_cases hm : M.marker F = 0
                    · simp only [hm, ne_eq, not_true, if_false] at hc
                      refine fin ?_ ?_ ?_ ?_ ?_ hc
                      · rfl
                      · rfl
                      · exact hdel
                      · rfl
                      · rfl
                    · simp only [ne_eq, hm, not_false_eq_true, if_true] at hc
                      have hidle := hd _ c k n1 F e1 e2 hF hpos hm
                      split at hc
                      · cases hc
                      · rename_i s2 hs2
                        unfold atMarked at hs2
                        simp only [bind, Except.bind, pure, Except.pure] at hs2
                        split at hs2
                        · cases hs2
                        · split at hs2
                          · cases hs2
                          · rename_i r2 hr2
                            cases hs2
                            obtain ⟨i1, i2, i3, i4, i5⟩ := hidle _ _ r2.1 r2.2 hr2
                            refine fin ?_ ?_ ?_ ?_ ?_ hc
                            · exact i1
                            · exact i3
                            · exact i4.trans hdel
                            · exact i5
                            · exact i2
          obtain ⟨k1, k2, k3, kr, k4, f, hf, k5⟩ := key
          subst k4
          simp only [Bool.false_eq_true, if_false] at e
          have hx' : proj h (s1.part.x - s1.part.x0) = ((1 - f) * t) • d := by
            have : s1.part.x - s1.part.x0 = (1 - f) • (s.part.x - s.part.x0) := by
              rw [k1, k5]; funext i; simp only [Pi.sub_apply, Pi.add_apply, Pi.smul_apply, smul_eq_mul]; ring
            rw [this, mul_smul, ← hx]
            funext i; simp [proj]
          have := ih (mul_nonneg (by linarith) ht) hx' k3 e
          rwa [k1, k2, kr] at this
      · cases e; exact ⟨rfl, rfl, hdel, rfl, hi⟩

end

end Dt
