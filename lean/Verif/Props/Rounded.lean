import Verif.Props.Simulation
import Verif.Spec.Rounded
import Mathlib.Data.Rat.Floor

/-!
# What holds in spite of rounding errors (C134)

The movers in machine arithmetic.  Labels of cells, numbers of crossings and the ways through the mesh do not depend on the
arithmetic at all; fractions of a move and the order of the recorded times need a monotone rounding.
-/

set_option linter.unusedSectionVars false

namespace Dt
open TimeLoop
open Spec (IsRounding Walk Complete exactly LState Stores Pop Ideal Fault lastOf)
variable {K V : Type} [Field K] [LinearOrder K] [IsStrictOrderedRing K] {g p : Nat} {τ ρ φ : Type}

namespace Rounded

/-! ### `find_facet` -/

theorem testFacet_range {A : Arith K g} (hA : IsRounding A) {c : Cell K g} {x0 dx : Vec K g} {k w : Int} {acc acc' : Int × K}
    (h : 0 ≤ acc.2 ∧ acc.2 ≤ 1) (e : testFacet A c x0 dx k w acc = .ok acc') :
    (0 ≤ acc'.2 ∧ acc'.2 ≤ 1) ∧ (acc'.1 = acc.1 ∨ acc'.1 = k) := by
  unfold testFacet at e
  cases hn : pyGet c.normals k with
  | error e' => rw [hn] at e; cases e
  | ok n =>
    rw [hn] at e
    simp only [bind, Except.bind] at e
    split at e
    · rename_i hpos
      cases hv : pyGet c.verts w with
      | error e' => rw [hv] at e; cases e
      | ok v =>
        rw [hv] at e
        simp only at e
        generalize hd : (if A.dot n (fun i => A.fl (v i - x0 i)) < 0 then -A.dot n (fun i => A.fl (v i - x0 i))
          else A.dot n (fun i => A.fl (v i - x0 i))) = d at e
        have hd0 : 0 ≤ d := by
          rw [← hd]; split
          · rename_i hneg; exact (neg_pos.2 hneg).le
          · rename_i hneg; exact not_lt.1 hneg
        split at e
        · rename_i hlt
          cases e
          have h1 : A.fl (acc.2 * A.dot n dx) ≤ A.dot n dx := by
            calc _ ≤ A.fl (A.dot n dx) := hA.mono _ _ (by nlinarith [h.2, hpos])
              _ = _ := hA.dot _ _
          refine ⟨⟨?_, ?_⟩, .inr rfl⟩
          · rw [← hA.zero]; exact hA.mono _ _ (div_nonneg hd0 hpos.le)
          · show A.fl _ ≤ 1
            rw [← hA.one]
            exact hA.mono _ _ ((div_le_one hpos).2 (hlt.le.trans h1))
        · cases e; exact ⟨h, .inl rfl⟩
    · cases e; exact ⟨h, .inl rfl⟩

theorem testAll_range {A : Arith K g} (hA : IsRounding A) {c : Cell K g} {x0 dx : Vec K g} {l : List (Int × Int)} {acc acc' : Int × K}
    (h : 0 ≤ acc.2 ∧ acc.2 ≤ 1) (e : testAll A c x0 dx l acc = .ok acc') :
    (0 ≤ acc'.2 ∧ acc'.2 ≤ 1) ∧ (acc'.1 = acc.1 ∨ acc'.1 ∈ l.map (·.1)) := by
  induction l generalizing acc with
  | nil => cases e; exact ⟨h, .inl rfl⟩
  | cons a l ih =>
    obtain ⟨k, w⟩ := a
    unfold testAll at e
    cases ht : testFacet A c x0 dx k w acc with
    | error e' => rw [ht] at e; cases e
    | ok acc1 =>
      rw [ht] at e
      obtain ⟨h1, h2⟩ := testFacet_range hA h ht
      obtain ⟨h3, h4⟩ := ih h1 e
      refine ⟨h3, ?_⟩
      rcases h4 with h4 | h4
      · rcases h2 with h2 | h2
        · exact .inl (h4.trans h2)
        · exact .inr (by rw [h4, h2]; simp)
      · exact .inr (by simp only [List.map_cons, List.mem_cons]; exact .inr h4)

theorem findFacet1_range {A : Arith K g} (hA : IsRounding A) {c : Cell K g} {x0 dx : Vec K g} {facet : Int} {f : K} {n : Option (Vec K g)}
    (e : findFacet1 A c x0 dx = .ok (facet, f, n)) : 0 ≤ f ∧ f ≤ 1 := by
  unfold findFacet1 at e
  split at e
  · cases e; exact ⟨zero_le_one, le_rfl⟩
  · cases h0 : testFacet A c x0 dx 0 0 (noFacet, 1) with
    | error e' => rw [h0] at e; cases e
    | ok r =>
      obtain ⟨f0, d0⟩ := r
      rw [h0] at e
      simp only [bind, Except.bind] at e
      have r0 := (testFacet_range hA ⟨zero_le_one, le_rfl⟩ h0).1
      split at e
      · cases hn : pyGet c.normals f0 with
        | error e' => rw [hn] at e; cases e
        | ok n => rw [hn] at e; cases e; exact r0
      · cases h1 : testFacet A c x0 dx 1 1 (noFacet, 1) with
        | error e' => rw [h1] at e; cases e
        | ok r =>
          obtain ⟨f1, d1⟩ := r
          rw [h1] at e
          simp only at e
          have r1 := (testFacet_range hA ⟨zero_le_one, le_rfl⟩ h1).1
          split at e
          · cases hn : pyGet c.normals f1 with
            | error e' => rw [hn] at e; cases e
            | ok n => rw [hn] at e; cases e; exact r1
          · split at e
            · cases e
            · cases hn : pyGet c.normals f1 with
              | error e' => rw [hn] at e; cases e
              | ok n => rw [hn] at e; cases e; exact r1

theorem findFacetMulti_range {A : Arith K g} {c : Cell K g} {x0 dx : Vec K g} {facet : Int} {f : K} {n : Option (Vec K g)}
    (e : findFacetMulti A c x0 dx = .ok (facet, f, n)) : 0 ≤ f ∧ f ≤ 1 := by
  unfold findFacetMulti at e
  split at e
  · cases e; exact ⟨zero_le_one, le_rfl⟩
  · cases h0 : testAll A c x0 dx (facetTests g) (noFacet, 1) with
    | error e' => rw [h0] at e; cases e
    | ok r =>
      obtain ⟨f0, d0⟩ := r
      rw [h0] at e
      simp only [bind, Except.bind] at e
      split at e
      · cases e
      · rename_i hr
        push Not at hr
        cases hn : pyGet c.normals f0 with
        | error e' => rw [hn] at e; cases e
        | ok n => rw [hn] at e; cases e; exact ⟨hr.2, hr.1⟩

theorem findFacet_range {A : Arith K g} (hA : IsRounding A) {M : Mesh K g} {x0 dx : Vec K g} {ci facet : Int} {f : K} {n : Option (Vec K g)}
    (e : findFacet A M x0 dx ci = .ok (facet, f, n)) : 0 ≤ f ∧ f ≤ 1 := by
  unfold findFacet at e
  split at e
  · cases e; exact ⟨zero_le_one, le_rfl⟩
  · cases hl : M.lookup ci with
    | error e' => rw [hl] at e; cases e
    | ok c =>
      rw [hl] at e
      simp only [bind, Except.bind] at e
      split at e
      · exact findFacetMulti_range e
      · exact findFacetMulti_range e
      · exact findFacet1_range hA e

theorem pyGet_total {β : Type} {xs : List β} {k : Int} (h0 : -1 ≤ k) (h1 : k < xs.length) (h2 : xs ≠ []) : ∃ b, pyGet xs k = .ok b := by
  unfold pyGet
  have hl : 0 < xs.length := List.length_pos_iff.2 h2
  split
  · rw [List.getElem?_eq_getElem (by omega)]; exact ⟨_, rfl⟩
  · rw [if_pos (by omega), List.getElem?_eq_getElem (by omega)]; exact ⟨_, rfl⟩

theorem testFacet_total {A : Arith K g} {c : Cell K g} {x0 dx : Vec K g} {k w : Int} (acc : Int × K)
    (hk : 0 ≤ k ∧ k < c.normals.length) (hw : 0 ≤ w ∧ w < c.verts.length) : ∃ acc', testFacet A c x0 dx k w acc = .ok acc' := by
  unfold testFacet
  obtain ⟨n, hn⟩ := pyGet_total (xs := c.normals) (k := k) (by omega) hk.2 (by rintro h; rw [h] at hk; simp at hk; omega)
  obtain ⟨v, hv⟩ := pyGet_total (xs := c.verts) (k := w) (by omega) hw.2 (by rintro h; rw [h] at hw; simp at hw; omega)
  rw [hn, hv]
  simp only [bind, Except.bind, pure, Except.pure]
  split
  · split <;> split <;> exact ⟨_, rfl⟩
  · exact ⟨_, rfl⟩

theorem testAll_total {A : Arith K g} {c : Cell K g} {x0 dx : Vec K g} {l : List (Int × Int)}
    (hl : ∀ a ∈ l, (0 ≤ a.1 ∧ a.1 < c.normals.length) ∧ (0 ≤ a.2 ∧ a.2 < c.verts.length)) (acc : Int × K) :
    ∃ acc', testAll A c x0 dx l acc = .ok acc' := by
  induction l generalizing acc with
  | nil => exact ⟨_, rfl⟩
  | cons a l ih =>
    obtain ⟨k, w⟩ := a
    obtain ⟨acc1, h1⟩ := testFacet_total (A := A) (x0 := x0) (dx := dx) acc (hl (k, w) (by simp)).1 (hl (k, w) (by simp)).2
    unfold testAll
    rw [h1]
    exact ih (fun a ha => hl a (by simp [ha])) acc1

theorem findFacetMulti_total {A : Arith K g} (hA : IsRounding A) {c : Cell K g} (x0 dx : Vec K g)
    (hl : ∀ a ∈ facetTests g, (0 ≤ a.1 ∧ a.1 < c.normals.length) ∧ (0 ≤ a.2 ∧ a.2 < c.verts.length)) (hne : c.normals ≠ []) :
    ∃ facet f n, findFacetMulti A c x0 dx = .ok (facet, f, n) ∧ -1 ≤ facet ∧ facet < c.normals.length := by
  unfold findFacetMulti
  split
  · exact ⟨-1, _, _, rfl, le_rfl, by have := List.length_pos_iff.2 hne; omega⟩
  · obtain ⟨⟨facet, f⟩, h1⟩ := testAll_total (A := A) (x0 := x0) (dx := dx) hl (noFacet, 1)
    obtain ⟨h2, h3⟩ := testAll_range hA ⟨zero_le_one, le_rfl⟩ h1
    have hf : -1 ≤ facet ∧ facet < c.normals.length := by
      rcases h3 with h3 | h3
      · simp only [noFacet] at h3; rw [h3]; have := List.length_pos_iff.2 hne; omega
      · obtain ⟨a, ha, h4⟩ := List.mem_map.1 h3
        simp only at h4
        have := (hl a ha).1; omega
    obtain ⟨n, hn⟩ := pyGet_total hf.1 hf.2 hne
    rw [h1]
    simp only [bind, Except.bind]
    simp only at h2
    rw [if_neg (by push Not; exact ⟨h2.2, h2.1⟩), hn]
    exact ⟨_, _, _, rfl, hf⟩

theorem findFacet1_total {A : Arith K g} (hA : IsRounding A) {c : Cell K g} (x0 dx : Vec K g)
    (hl : 2 ≤ c.normals.length ∧ 2 ≤ c.verts.length) :
    ∃ facet f n, findFacet1 A c x0 dx = .ok (facet, f, n) ∧ -1 ≤ facet ∧ facet < c.normals.length := by
  have hne : c.normals ≠ [] := by intro h; rw [h] at hl; simp at hl
  unfold findFacet1
  split
  · exact ⟨-1, _, _, rfl, le_rfl, by omega⟩
  · obtain ⟨⟨f0, d0⟩, h0⟩ := testFacet_total (A := A) (c := c) (x0 := x0) (dx := dx) (k := 0) (w := 0) (noFacet, 1) (by omega) (by omega)
    obtain ⟨⟨f1, d1⟩, h1⟩ := testFacet_total (A := A) (c := c) (x0 := x0) (dx := dx) (k := 1) (w := 1) (noFacet, 1) (by omega) (by omega)
    obtain ⟨r0, k0⟩ := testFacet_range hA ⟨zero_le_one, le_rfl⟩ h0
    obtain ⟨r1, k1⟩ := testFacet_range hA ⟨zero_le_one, le_rfl⟩ h1
    rw [h0]
    simp only [bind, Except.bind, noFacet] at k0 k1 ⊢
    split
    · obtain ⟨n, hn⟩ := pyGet_total (xs := c.normals) (k := f0) (by omega) (by omega) hne
      rw [hn]; exact ⟨_, _, _, rfl, by omega, by omega⟩
    · simp only [noFacet] at h1
      rw [h1]
      simp only
      obtain ⟨n, hn⟩ := pyGet_total (xs := c.normals) (k := f1) (by omega) (by omega) hne
      split
      · rw [hn]; exact ⟨_, _, _, rfl, by omega, by omega⟩
      · simp only at r1
        rw [if_neg (by push Not; exact ⟨r1.2, r1.1⟩), hn]
        exact ⟨_, _, _, rfl, by omega, by omega⟩

theorem findFacet_total {A : Arith K g} (hA : IsRounding A) {M : Mesh K g} (hM : Complete M) {ci : Int} {c : Cell K g}
    (hc : M.cell ci = some c) (x0 dx : Vec K g) :
    ∃ facet f n, findFacet A M x0 dx ci = .ok (facet, f, n) ∧ -1 ≤ facet ∧ facet < (g : Int) + 1 := by
  obtain ⟨l1, l2, -, -⟩ := hM.lengths _ _ hc
  have hlook : M.lookup ci = .ok c := by unfold Mesh.lookup; rw [hc]
  have hne : c.normals ≠ [] := by intro h; rw [h] at l2; simp at l2
  have hd := hM.dim
  unfold findFacet
  split
  · exact ⟨-1, _, _, rfl, le_rfl, by omega⟩
  · rw [hlook]
    simp only [bind, Except.bind]
    split
    · obtain ⟨a, b, d, h1, h2, h3⟩ := findFacetMulti_total hA (c := c) x0 dx (by simp [facetTests, l1, l2]) hne
      exact ⟨a, b, d, h1, h2, by rw [l2] at h3; exact_mod_cast h3⟩
    · obtain ⟨a, b, d, h1, h2, h3⟩ := findFacetMulti_total hA (c := c) x0 dx (by simp [facetTests, l1, l2]) hne
      exact ⟨a, b, d, h1, h2, by rw [l2] at h3; exact_mod_cast h3⟩
    · obtain ⟨a, b, d, h1, h2, h3⟩ := findFacet1_total hA (c := c) x0 dx (by omega)
      exact ⟨a, b, d, h1, h2, by rw [l2] at h3; exact_mod_cast h3⟩

/-! ### One crossing -/

theorem next_ok {c : Cell K g} {cFacet : Int} {t t' : Trk K p τ ρ} {brk : Bool} (e : nextCell c cFacet t = .ok (t', brk)) :
    ∃ new, pyGet c.neighbors cFacet = .ok new ∧ t'.count = t.count ∧ t'.tStart = t.tStart ∧ t'.rem = t.rem ∧ t'.events = t.events ∧
      t'.part.del = t.part.del ∧
      (if new = -1 then t'.cell = t.cell ∧ brk = t.part.del ∧ t'.part.cell = (if t.part.del then -1 else t.part.cell)
      else t'.cell = new ∧ brk = false ∧ t'.part.cell = new) := by
  unfold nextCell at e
  cases hn : pyGet c.neighbors cFacet with
  | error e' => rw [hn] at e; cases e
  | ok new =>
    rw [hn] at e
    simp only [bind, Except.bind, noCell] at e
    refine ⟨new, rfl, ?_⟩
    by_cases h1 : new = -1
    · rw [if_pos h1] at e ⊢
      by_cases h2 : t.part.del = true
      · rw [if_pos h2] at e ⊢
        cases e
        exact ⟨rfl, rfl, rfl, rfl, rfl, rfl, h2.symm, rfl⟩
      · rw [if_neg h2] at e ⊢
        cases e
        exact ⟨rfl, rfl, rfl, rfl, rfl, rfl, by simpa using h2, rfl⟩
    · rw [if_neg h1] at e ⊢
      cases e
      exact ⟨rfl, rfl, rfl, rfl, rfl, rfl, rfl, rfl⟩

theorem marked_ok {v : Variant} {bc : Int → τ → BCall K g p ρ → Except Err (τ × Part K p ρ)} (hbc : KeepsCell bc) {value : Int} {f : K}
    {n : Option (Vec K g)} {mFacet : Int} {s s' : Trk K p τ ρ} (e : atMarked v bc value f n mFacet s = .ok s') :
    s'.count = s.count ∧ s'.tStart = s.tStart ∧ s'.rem = s.rem ∧ s'.cell = s.cell ∧ s'.part.cell = s.part.cell ∧
      (s'.events = s.events ∨ ∃ q, s'.events = s.events ++ [(q, s.tStart)]) := by
  unfold atMarked at e
  cases he : crossEvents v s with
  | error e' => rw [he] at e; cases e
  | ok evs =>
    rw [he] at e
    simp only [bind, Except.bind] at e
    cases hb : bc value s.st ⟨s.part, mFacet, f, n, s.dxS⟩ with
    | error e' => rw [hb] at e; cases e
    | ok r =>
      obtain ⟨st1, q1⟩ := r
      rw [hb] at e
      cases e
      refine ⟨rfl, rfl, rfl, rfl, hbc _ _ _ _ _ hb, ?_⟩
      unfold crossEvents at he
      split at he
      · split at he
        · cases he; exact .inr ⟨_, rfl⟩
        · cases he
      · cases he; exact .inl (by simp)

/-- What one round of the tracking loop does to the labels and the times. -/
structure Moved (A : Arith K g) (M : Mesh K g) (s s' : Trk K p τ ρ) (brk : Bool) : Prop where
  count : s'.count = s.count + 1
  cell : ∃ c, M.cell s.cell = some c ∧
    (brk = false → s'.part.cell = s'.cell ∧ ((s'.cell ∈ c.neighbors ∧ s'.cell ≠ -1) ∨ (s'.cell = s.cell ∧ -1 ∈ c.neighbors))) ∧
    (brk = true → -1 ∈ c.neighbors ∧ s'.part.del = true ∧ s'.part.cell = -1)
  times : ∃ x0 dx facet f n, findFacet A M x0 dx s.cell = .ok (facet, f, n) ∧ s'.tStart = A.fl (s.tStart + A.fl (f * s.rem)) ∧
    s'.rem = A.fl (s.rem - A.fl (f * s.rem))
  events : s'.events = s.events ∨ ∃ q, s'.events = s.events ++ [(q, s'.tStart)]

theorem crossOnce_moved {A : Arith K g} {h : g ≤ p} {M : Mesh K g} {v : Variant}
    {bc : Int → τ → BCall K g p ρ → Except Err (τ × Part K p ρ)} (hbc : KeepsCell bc) {s s' : Trk K p τ ρ} {brk : Bool}
    (hs : s.part.cell = s.cell) (e : crossOnce A h M v bc s = .ok (s', brk)) : Moved A M s s' brk := by
  unfold crossOnce at e
  dsimp only at e
  cases hf : findFacet A M (proj h s.part.x0) (proj h (fun i => A.fl (s.part.x i - s.part.x0 i))) s.cell with
  | error e' => rw [hf] at e; cases e
  | ok r =>
    obtain ⟨cFacet, f, n⟩ := r
    rw [hf] at e
    simp only [bind, Except.bind, noFacet] at e
    split at e
    · cases e
    · cases hl : M.cell s.cell with
      | none =>
        have : M.lookup s.cell = .error .key := by unfold Mesh.lookup; rw [hl]
        rw [this] at e; cases e
      | some c =>
        have : M.lookup s.cell = .ok c := by unfold Mesh.lookup; rw [hl]
        rw [this] at e
        simp only at e
        cases hm : pyGet c.facets cFacet with
        | error e' => rw [hm] at e; cases e
        | ok mFacet =>
          rw [hm] at e
          simp only at e
          split at e
          · cases e
          · generalize hs1 : ({ s with
                count := s.count + 1
                tStart := A.fl (s.tStart + A.fl (f * s.rem))
                rem := A.fl (s.rem - A.fl (f * s.rem))
                part := { s.part with x0 := fun i => A.fl (s.part.x0 i + A.fl (f * A.fl (s.part.x i - s.part.x0 i))) }
                last := mFacet
                dxS := if v.sharesDx = true then fun i => A.fl (s.part.x i - s.part.x0 i) else s.dxS } : Trk K p τ ρ)
                = s1 at e
            have key : ∃ s2, nextCell c cFacet s2 = .ok (s', brk) ∧ s2.count = s1.count ∧ s2.tStart = s1.tStart ∧ s2.rem = s1.rem ∧
                s2.cell = s1.cell ∧ s2.part.cell = s1.part.cell ∧ (s2.events = s1.events ∨ ∃ q, s2.events = s1.events ++ [(q, s1.tStart)]) := by
              by_cases hmk : M.marker mFacet = 0
              · rw [if_neg (by simp [hmk])] at e
                exact ⟨s1, e, rfl, rfl, rfl, rfl, rfl, .inl rfl⟩
              · rw [if_pos hmk] at e
                cases ha : atMarked v bc (M.marker mFacet) f n mFacet s1 with
                | error e' => rw [ha] at e; cases e
                | ok s2 =>
                  rw [ha] at e
                  exact ⟨s2, e, marked_ok hbc ha⟩
            obtain ⟨s2, e2, k1, k2, k3, k4, k5, k6⟩ := key
            obtain ⟨new, hn, n1, n2, n3, n4, n5, n6⟩ := next_ok e2
            have hmem := pyGet_mem hn
            subst hs1
            refine ⟨by rw [n1, k1], ⟨c, hl, ?_, ?_⟩, ⟨_, _, _, _, _, hf, by rw [n2, k2], by rw [n3, k3]⟩, ?_⟩
            · intro hb
              split at n6
              · rename_i h1
                obtain ⟨m1, m2, m3⟩ := n6
                rw [hb] at m2
                rw [← m2] at m3
                refine ⟨?_, .inr ⟨by rw [m1, k4], h1 ▸ hmem⟩⟩
                rw [m3, m1, k4]; simp [k5, hs]
              · rename_i h1
                obtain ⟨m1, -, m3⟩ := n6
                exact ⟨by rw [m3, m1], .inl ⟨m1 ▸ hmem, by rw [m1]; exact h1⟩⟩
            · intro hb
              split at n6
              · rename_i h1
                obtain ⟨m1, m2, m3⟩ := n6
                rw [hb] at m2
                rw [← m2] at m3
                exact ⟨h1 ▸ hmem, by rw [n5, ← m2], by simpa using m3⟩
              · rw [hb] at n6; cases n6.2.1
            · rw [n4, n2, k2]; exact k6

/-! ### The tracking loop -/

theorem track_rule {A : Arith K g} {h : g ≤ p} {M : Mesh K g} {v : Variant}
    {bc : Int → τ → BCall K g p ρ → Except Err (τ × Part K p ρ)} {P Q : Trk K p τ ρ → Prop}
    (hstep : ∀ s s', P s → isInside A M (proj h s.part.x) s.cell = .ok false → crossOnce A h M v bc s = .ok (s', false) → P s')
    (hbrk : ∀ s s', P s → isInside A M (proj h s.part.x) s.cell = .ok false → crossOnce A h M v bc s = .ok (s', true) → Q s')
    (hin : ∀ s, P s → isInside A M (proj h s.part.x) s.cell = .ok true → Q s) (n : Nat) (s s' : Trk K p τ ρ) (hs : P s)
    (e : track A h M v bc n s = .ok s') : Q s' := by
  induction n generalizing s with
  | zero =>
    unfold track at e
    cases hi : isInside A M (proj h s.part.x) s.cell with
    | error e' => rw [hi] at e; cases e
    | ok b =>
      rw [hi] at e
      cases b with
      | true => cases e; exact hin _ hs hi
      | false => cases e
  | succ n ih =>
    unfold track at e
    cases hi : isInside A M (proj h s.part.x) s.cell with
    | error e' => rw [hi] at e; cases e
    | ok b =>
      rw [hi] at e
      cases b with
      | true => cases e; exact hin _ hs hi
      | false =>
        simp only [bind, Except.bind, Bool.false_eq_true, if_false] at e
        cases hc : crossOnce A h M v bc s with
        | error e' => rw [hc] at e; cases e
        | ok r =>
          obtain ⟨s1, brk⟩ := r
          rw [hc] at e
          cases brk with
          | true => simp only [if_true] at e; cases e; exact hbrk _ _ hs hi hc
          | false => exact ih s1 (hstep s s1 hs hi hc) e

theorem track_count {A : Arith K g} {h : g ≤ p} {M : Mesh K g} {v : Variant}
    {bc : Int → τ → BCall K g p ρ → Except Err (τ × Part K p ρ)} (hbc : KeepsCell bc) (n : Nat) (s s' : Trk K p τ ρ)
    (hs : s.part.cell = s.cell) (e : track A h M v bc n s = .ok s') : s'.count ≤ s.count + n := by
  induction n generalizing s with
  | zero =>
    unfold track at e
    cases hi : isInside A M (proj h s.part.x) s.cell with
    | error e' => rw [hi] at e; cases e
    | ok b =>
      rw [hi] at e
      cases b with
      | true => cases e; exact le_rfl
      | false => cases e
  | succ n ih =>
    unfold track at e
    cases hi : isInside A M (proj h s.part.x) s.cell with
    | error e' => rw [hi] at e; cases e
    | ok b =>
      rw [hi] at e
      cases b with
      | true => cases e; omega
      | false =>
        simp only [bind, Except.bind, Bool.false_eq_true, if_false] at e
        cases hc : crossOnce A h M v bc s with
        | error e' => rw [hc] at e; cases e
        | ok r =>
          obtain ⟨s1, brk⟩ := r
          rw [hc] at e
          have hm := crossOnce_moved hbc hs hc
          have hcount := hm.count
          cases brk with
          | true => simp only [if_true] at e; cases e; omega
          | false =>
            obtain ⟨c, -, h1, -⟩ := hm.cell
            have := ih s1 (h1 rfl).1 e
            omega

/-! ### Labels -/

/-- The result of tracking: inside its cell, as the code tests it, after a walk from the first cell; or deleted at a side
without neighbour. -/
def Arrived (A : Arith K g) (h : g ≤ p) (M : Mesh K g) (a : Int) (s : Trk K p τ ρ) : Prop :=
  (isInside A M (proj h s.part.x) s.part.cell = .ok true ∧ Walk M s.count a s.part.cell) ∨
    (s.part.del = true ∧ s.part.cell = -1 ∧ ∃ k b c, s.count = k + 1 ∧ Walk M k a b ∧ M.cell b = some c ∧ -1 ∈ c.neighbors)

theorem track_arrives {A : Arith K g} {h : g ≤ p} {M : Mesh K g} {v : Variant}
    {bc : Int → τ → BCall K g p ρ → Except Err (τ × Part K p ρ)} (hbc : KeepsCell bc) (n : Nat) (s s' : Trk K p τ ρ)
    (hs : s.part.cell = s.cell) (h0 : s.count = 0) (e : track A h M v bc n s = .ok s') : Arrived A h M s.cell s' := by
  refine track_rule (P := fun t => t.part.cell = t.cell ∧ Walk M t.count s.cell t.cell) (Q := Arrived A h M s.cell) ?_ ?_ ?_ n s s'
    ⟨hs, by rw [h0]; exact .start _⟩ e
  · rintro t t' ⟨h1, h2⟩ - hc
    have hm := crossOnce_moved hbc h1 hc
    obtain ⟨c, hcell, h3, -⟩ := hm.cell
    obtain ⟨h4, h5⟩ := h3 rfl
    refine ⟨h4, ?_⟩
    rw [hm.count]
    rcases h5 with ⟨h5, h6⟩ | ⟨h5, h6⟩
    · exact .next c h2 hcell h5 h6
    · rw [h5]; exact .turn c h2 hcell h6
  · rintro t t' ⟨h1, h2⟩ - hc
    have hm := crossOnce_moved hbc h1 hc
    obtain ⟨c, hcell, -, h3⟩ := hm.cell
    obtain ⟨h4, h5, h6⟩ := h3 rfl
    exact .inr ⟨h5, h6, _, _, c, hm.count, h2, hcell, h4⟩
  · rintro t ⟨h1, h2⟩ hin
    exact .inl ⟨by rw [h1]; exact hin, by rw [h1]; exact h2⟩

theorem charged_split {A : Arith K g} {h : g ≤ p} {M : Mesh K g} {v : Variant}
    {bc : Int → τ → BCall K g p ρ → Except Err (τ × Part K p ρ)} {n : Nat} {time dt qmdt : K} {accel : Bool}
    {E : Part K p ρ → Option (Vec K p)} {st st' : τ × Vec K p} {q q' : Part K p ρ} {evs : List (Part K p ρ × K)}
    (e : moveCharged A h M v bc n time dt qmdt accel E st q = .ok (st', q', evs) ∨ moveNeutral A h M v bc n time dt st q = .ok (st', q', evs)) :
    ∃ q2 s, q2.cell = q.cell ∧ track A h M v bc n (startTrk A time dt st.1 st.2 q2) = .ok s ∧ q' = { s.part with crossings := s.count } ∧
      evs = s.events := by
  rcases e with e | e
  · unfold moveCharged at e
    dsimp only at e
    refine ⟨if accel then accelerate A qmdt (E q) q else moveBy A dt (accelerate A qmdt (E q) q), ?_⟩
    cases ht : track A h M v bc n (startTrk A time dt st.1 st.2
        (if accel then accelerate A qmdt (E q) q else moveBy A dt (accelerate A qmdt (E q) q))) with
    | error e' => rw [ht] at e; cases e
    | ok s =>
      rw [ht] at e
      cases e
      refine ⟨s, ?_, rfl, rfl, rfl⟩
      cases accel <;> cases hE : E q <;> rfl
  · unfold moveNeutral at e
    cases ht : track A h M v bc n (startTrk A time dt st.1 st.2 (moveBy A dt q)) with
    | error e' => rw [ht] at e; cases e
    | ok s =>
      rw [ht] at e
      cases e
      exact ⟨moveBy A dt q, s, rfl, ht, rfl, rfl⟩

end Rounded

open Rounded in
/-- C134.  Whatever the arithmetic: when a particle has been moved and tracked without an error, it passes the test of the code
for the cell it is labelled with, and there is a way from its old cell to the new one with as many moves as its counter of
crossings says; or it is flagged as deleted, labelled NO_CELL, and was deleted in a cell that has a side without neighbour.  The
counter is at most the given maximum.  Any mesh, any callbacks that do not write the label. -/
theorem C134_labels {A : Arith K g} {h : g ≤ p} {M : Mesh K g} {v : Variant}
    {bc : Int → τ → BCall K g p ρ → Except Err (τ × Part K p ρ)} (hbc : KeepsCell bc) {n : Nat} {time dt qmdt : K} {accel : Bool}
    {E : Part K p ρ → Option (Vec K p)} {st st' : τ × Vec K p} {q q' : Part K p ρ} {evs : List (Part K p ρ × K)}
    (e : Rounded.moveCharged A h M v bc n time dt qmdt accel E st q = .ok (st', q', evs) ∨
      Rounded.moveNeutral A h M v bc n time dt st q = .ok (st', q', evs)) :
    q'.crossings ≤ n ∧
    ((Rounded.isInside A M (proj h q'.x) q'.cell = .ok true ∧ Walk M q'.crossings q.cell q'.cell) ∨
      (q'.del = true ∧ q'.cell = -1 ∧ ∃ k b c, q'.crossings = k + 1 ∧ Walk M k q.cell b ∧ M.cell b = some c ∧ -1 ∈ c.neighbors)) := by
  obtain ⟨q2, s, hq, ht, rfl, -⟩ := charged_split e
  have h1 := track_count hbc n _ _ rfl ht
  have h2 := track_arrives hbc n _ _ rfl rfl ht
  refine ⟨by simpa [Rounded.startTrk] using h1, ?_⟩
  rw [← hq]
  exact h2

/-- C134.  With a monotone rounding, the fraction of a move that `find_facet` returns is between 0 and 1, for every cell and every
move; with complete tables `find_facet` always returns, with NO_FACET or a facet of the cell. -/
theorem C134_fraction {A : Arith K g} (hA : IsRounding A) {M : Mesh K g} (hM : Complete M) {ci : Int} {c : Cell K g}
    (hc : M.cell ci = some c) (x0 dx : Vec K g) :
    ∃ facet f n, Rounded.findFacet A M x0 dx ci = .ok (facet, f, n) ∧ 0 ≤ f ∧ f ≤ 1 ∧ -1 ≤ facet ∧ facet < (g : Int) + 1 := by
  obtain ⟨facet, f, n, e, h1, h2⟩ := Rounded.findFacet_total hA hM hc x0 dx
  exact ⟨facet, f, n, e, (Rounded.findFacet_range hA e).1, (Rounded.findFacet_range hA e).2, h1, h2⟩

open Rounded in
/-- C134.  With a monotone rounding, the times recorded for the crossings of a particle do not decrease and are not before the
(rounded) beginning of the step.  Missing: not after its end (false: `C134_false_late`). -/
theorem C134_times_partial {A : Arith K g} (hA : IsRounding A) {h : g ≤ p} {M : Mesh K g} {v : Variant}
    {bc : Int → τ → BCall K g p ρ → Except Err (τ × Part K p ρ)} (hbc : KeepsCell bc) {n : Nat} {time dt qmdt : K} {accel : Bool}
    (hdt : 0 ≤ dt) (hm : A.fl dt = dt)
    {E : Part K p ρ → Option (Vec K p)} {st st' : τ × Vec K p} {q q' : Part K p ρ} {evs : List (Part K p ρ × K)}
    (e : Rounded.moveCharged A h M v bc n time dt qmdt accel E st q = .ok (st', q', evs) ∨
      Rounded.moveNeutral A h M v bc n time dt st q = .ok (st', q', evs)) :
    (evs.map Prod.snd).Pairwise (· ≤ ·) ∧ ∀ t ∈ evs.map Prod.snd, A.fl (time - dt) ≤ t := by
  obtain ⟨q2, s, hq, ht, -, rfl⟩ := charged_split e
  let T : Trk K p τ ρ → Prop := fun t => A.fl (time - dt) ≤ t.tStart ∧ A.fl t.tStart = t.tStart ∧ 0 ≤ t.rem ∧ A.fl t.rem = t.rem ∧
    (t.events.map Prod.snd).Pairwise (· ≤ ·) ∧ ∀ r ∈ t.events.map Prod.snd, A.fl (time - dt) ≤ r ∧ r ≤ t.tStart
  have step : ∀ (t t' : Trk K p τ ρ) (brk : Bool), T t → Moved A M t t' brk → T t' := by
    rintro t t' brk ⟨h1, h2, h3, h4, h5, h6⟩ hmv
    obtain ⟨x0, dx, facet, f, nn, hf, k1, k2⟩ := hmv.times
    obtain ⟨f0, f1⟩ := Rounded.findFacet_range hA hf
    have e0 : 0 ≤ A.fl (f * t.rem) := by rw [← hA.zero]; exact hA.mono _ _ (mul_nonneg f0 h3)
    have e1 : A.fl (f * t.rem) ≤ t.rem := by
      calc _ ≤ A.fl t.rem := hA.mono _ _ (mul_le_of_le_one_left h3 f1)
        _ = _ := h4
    have hle : t.tStart ≤ t'.tStart := by
      rw [k1]
      calc t.tStart = A.fl t.tStart := h2.symm
        _ ≤ _ := hA.mono _ _ (by linarith)
    have h6' : ∀ r ∈ t.events.map Prod.snd, A.fl (time - dt) ≤ r ∧ r ≤ t'.tStart := fun r hr => ⟨(h6 r hr).1, (h6 r hr).2.trans hle⟩
    refine ⟨h1.trans hle, by rw [k1]; exact hA.idem _, ?_, by rw [k2]; exact hA.idem _, ?_, ?_⟩
    · rw [k2, ← hA.zero]; exact hA.mono _ _ (by linarith)
    · rcases hmv.events with he | ⟨q, he⟩
      · rw [he]; exact h5
      · rw [he, List.map_append, List.pairwise_append]
        refine ⟨h5, by simp, ?_⟩
        intro a ha b hb
        simp only [List.map_cons, List.map_nil, List.mem_singleton] at hb
        rw [hb]; exact (h6' a ha).2
    · rcases hmv.events with he | ⟨q, he⟩
      · rw [he]; exact h6'
      · rw [he, List.map_append]
        intro r hr
        rcases List.mem_append.1 hr with hr | hr
        · exact h6' r hr
        · simp only [List.map_cons, List.map_nil, List.mem_singleton] at hr
          rw [hr]; exact ⟨h1.trans hle, le_rfl⟩
  have := track_rule (P := fun t => t.part.cell = t.cell ∧ T t) (Q := T) (fun t t' ht _ hc => by
      have hmv := crossOnce_moved hbc ht.1 hc
      obtain ⟨c, -, h3, -⟩ := hmv.cell
      exact ⟨(h3 rfl).1, step _ _ _ ht.2 hmv⟩)
    (fun t t' ht _ hc => step _ _ _ ht.2 (crossOnce_moved hbc ht.1 hc)) (fun t ht _ => ht.2) n _ s
    ⟨rfl, le_rfl, hA.idem _, hdt, hm, by simp [Rounded.startTrk], by simp [Rounded.startTrk]⟩ ht
  exact ⟨this.2.2.2.2.1, fun t ht => (this.2.2.2.2.2 t ht).1⟩

open Rounded in
/-- C134.  With a monotone rounding and complete tables, and callbacks that return, moving a particle that is labelled with a cell
of the mesh either succeeds or raises one of the three RuntimeErrors of the tracking loop: no other exception is caused by rounding
errors.  Missing: that these are not caused by rounding errors (false: `C134_false_no_facet`). -/
theorem C134_errors_partial {A : Arith K g} (hA : IsRounding A) {h : g ≤ p} {M : Mesh K g} (hM : Complete M) {v : Variant}
    (hv : v.datum = .ok ()) {bc : Int → τ → BCall K g p ρ → Except Err (τ × Part K p ρ)} (hbc : KeepsCell bc)
    (htot : ∀ value st call, ∃ r, bc value st call = .ok r) {n : Nat} {time dt qmdt : K} {accel : Bool}
    {E : Part K p ρ → Option (Vec K p)} {st : τ × Vec K p} {q : Part K p ρ} {c : Cell K g} (hq : M.cell q.cell = some c) :
    (∃ r, Rounded.moveCharged A h M v bc n time dt qmdt accel E st q = .ok r) ∨
      ∃ x ∈ [Err.tooMany, .noFacet, .sameFacet], Rounded.moveCharged A h M v bc n time dt qmdt accel E st q = .error (v.err x) := by
  have cross : ∀ s : Trk K p τ ρ, s.part.cell = s.cell → (∃ c, M.cell s.cell = some c) →
      (∃ r, Rounded.crossOnce A h M v bc s = .ok r) ∨ ∃ x ∈ [Err.tooMany, .noFacet, .sameFacet], Rounded.crossOnce A h M v bc s = .error (v.err x) := by
    rintro s hs ⟨c, hc⟩
    obtain ⟨-, -, l3, l4⟩ := hM.lengths _ _ hc
    have hlook : M.lookup s.cell = .ok c := by unfold Mesh.lookup; rw [hc]
    obtain ⟨facet, f, nn, hf, f1, f2⟩ := Rounded.findFacet_total hA hM hc (proj h s.part.x0) (proj h (fun i => A.fl (s.part.x i - s.part.x0 i)))
    unfold Rounded.crossOnce
    dsimp only
    rw [hf]
    simp only [bind, Except.bind]
    split
    · exact .inr ⟨.noFacet, by simp, rfl⟩
    · obtain ⟨mF, hmF⟩ := pyGet_total (xs := c.facets) (k := facet) f1 (by omega) (by intro h0; rw [h0] at l3; simp at l3)
      obtain ⟨new, hnew⟩ := pyGet_total (xs := c.neighbors) (k := facet) f1 (by omega) (by intro h0; rw [h0] at l4; simp at l4)
      rw [hlook]
      simp only
      rw [hmF]
      simp only
      split
      · exact .inr ⟨.sameFacet, by simp, rfl⟩
      · left
        have hnext : ∀ t : Trk K p τ ρ, ∃ r, nextCell c facet t = .ok r := by
          intro t
          unfold nextCell
          rw [hnew]
          simp only [bind, Except.bind, pure, Except.pure]
          split
          · split <;> exact ⟨_, rfl⟩
          · exact ⟨_, rfl⟩
        have hmark : ∀ t : Trk K p τ ρ, ∃ t', atMarked v bc (M.marker mF) f nn mF t = .ok t' := by
          intro t
          unfold atMarked crossEvents
          obtain ⟨r, hr⟩ := htot (M.marker mF) t.st ⟨t.part, mF, f, nn, t.dxS⟩
          rw [hv, hr]
          cases t.part.traj <;> exact ⟨_, rfl⟩
        split
        · obtain ⟨t', h2⟩ := hmark ({ s with
              count := s.count + 1
              tStart := A.fl (s.tStart + A.fl (f * s.rem))
              rem := A.fl (s.rem - A.fl (f * s.rem))
              part := { s.part with x0 := fun i => A.fl (s.part.x0 i + A.fl (f * A.fl (s.part.x i - s.part.x0 i))) }
              last := mF
              dxS := if v.sharesDx = true then fun i => A.fl (s.part.x i - s.part.x0 i) else s.dxS } : Trk K p τ ρ)
          rw [h2]; exact hnext _
        · exact hnext _
  have trk : ∀ (n : Nat) (s : Trk K p τ ρ), s.part.cell = s.cell → (∃ c, M.cell s.cell = some c) →
      (∃ r, Rounded.track A h M v bc n s = .ok r) ∨ ∃ x ∈ [Err.tooMany, .noFacet, .sameFacet], Rounded.track A h M v bc n s = .error (v.err x) := by
    intro n
    induction n with
    | zero =>
      rintro s hs ⟨c, hc⟩
      have hlook : M.lookup s.cell = .ok c := by unfold Mesh.lookup; rw [hc]
      unfold Rounded.track Rounded.isInside
      rw [hlook]
      simp only [bind, Except.bind, pure, Except.pure]
      split
      · exact .inl ⟨_, rfl⟩
      · exact .inr ⟨.tooMany, by simp, rfl⟩
    | succ n ih =>
      rintro s hs ⟨c, hc⟩
      have hlook : M.lookup s.cell = .ok c := by unfold Mesh.lookup; rw [hc]
      unfold Rounded.track Rounded.isInside
      rw [hlook]
      simp only [bind, Except.bind, pure, Except.pure]
      split
      · exact .inl ⟨_, rfl⟩
      · rcases cross s hs ⟨c, hc⟩ with ⟨⟨s1, brk⟩, h1⟩ | ⟨x, hx, h1⟩
        · rw [h1]
          cases brk with
          | true => exact .inl ⟨_, rfl⟩
          | false =>
            obtain ⟨c', hc', h3, -⟩ := (crossOnce_moved hbc hs h1).cell
            obtain ⟨h4, h5⟩ := h3 rfl
            refine ih s1 h4 ?_
            rcases h5 with ⟨h5, h6⟩ | ⟨h5, -⟩
            · rcases hM.neighbors _ _ hc' _ h5 with h7 | h7
              · exact absurd h7 h6
              · exact h7
            · rw [h5]; exact ⟨c, hc⟩
        · rw [h1]; exact .inr ⟨x, hx, rfl⟩
  have hcell : (if accel then Rounded.accelerate A qmdt (E q) q else Rounded.moveBy A dt (Rounded.accelerate A qmdt (E q) q)).cell = q.cell := by
    cases accel <;> cases hE : E q <;> rfl
  unfold Rounded.moveCharged
  dsimp only
  rcases trk n (Rounded.startTrk A time dt st.1 st.2 (if accel then Rounded.accelerate A qmdt (E q) q else Rounded.moveBy A dt (Rounded.accelerate A qmdt (E q) q)))
    rfl ⟨c, by simp only [Rounded.startTrk]; rw [hcell]; exact hq⟩ with ⟨s, hs⟩ | ⟨x, hx, hs⟩
  · rw [hs]; exact .inl ⟨_, rfl⟩
  · rw [hs]; exact .inr ⟨x, hx, rfl⟩

/-! ### Exact arithmetic -/

namespace Rounded

theorem testFacet_exact (c : Cell K g) (x0 dx : Vec K g) (k w : Int) (acc : Int × K) :
    testFacet exactly c x0 dx k w acc = Dt.testFacet c x0 dx k w acc := rfl

theorem testAll_exact (c : Cell K g) (x0 dx : Vec K g) (l : List (Int × Int)) (acc : Int × K) :
    testAll exactly c x0 dx l acc = Dt.testAll c x0 dx l acc := by
  induction l generalizing acc with
  | nil => rfl
  | cons a l ih =>
    simp only [testAll, Dt.testAll, testFacet_exact]
    congr 1
    funext acc'
    exact ih acc'

theorem findFacet_exact (M : Mesh K g) (x0 dx : Vec K g) (ci : Int) : findFacet exactly M x0 dx ci = M.findFacet x0 dx ci := by
  have h1 : ∀ {g : Nat} (c : Cell K g) (x0 dx : Vec K g), findFacetMulti exactly c x0 dx = Dt.findFacetMulti c x0 dx := by
    intro g c x0 dx
    simp only [findFacetMulti, Dt.findFacetMulti, testAll_exact]
    rfl
  have h2 : ∀ {g : Nat} (c : Cell K g) (x0 dx : Vec K g), findFacet1 exactly c x0 dx = Dt.findFacet1 c x0 dx := fun _ _ _ => rfl
  unfold findFacet Mesh.findFacet
  split
  · rename_i h0
    rw [if_pos (show Dt.dot dx dx = 0 from h0)]
  · rename_i h0
    rw [if_neg (show ¬ Dt.dot dx dx = 0 from h0)]
    congr 1
    funext c
    split
    · exact h1 _ _ _
    · exact h1 _ _ _
    · split
      · contradiction
      · contradiction
      · exact h2 _ _ _

theorem crossOnce_exact (h : g ≤ p) (M : Mesh K g) (v : Variant) (bc : Int → τ → BCall K g p ρ → Except Err (τ × Part K p ρ))
    (s : Trk K p τ ρ) : crossOnce exactly h M v bc s = Dt.crossOnce h M v bc s := by
  unfold crossOnce Dt.crossOnce
  simp only [findFacet_exact]
  rfl

theorem track_exact (h : g ≤ p) (M : Mesh K g) (v : Variant) (bc : Int → τ → BCall K g p ρ → Except Err (τ × Part K p ρ)) (n : Nat)
    (s : Trk K p τ ρ) : track exactly h M v bc n s = Dt.track h M v bc n s := by
  induction n generalizing s with
  | zero => unfold track Dt.track; rfl
  | succ n ih =>
    unfold track Dt.track
    simp only [crossOnce_exact, ih]
    rfl

theorem moveBy_exact (dt : K) (q : Part K p ρ) : moveBy (exactly : Arith K g) dt q = Dt.moveBy dt q := by
  unfold moveBy Dt.moveBy
  congr 1
  funext i
  show q.x i + q.u i * dt = q.x i + dt * q.u i
  rw [mul_comm]

end Rounded

/-- C134.  In exact arithmetic the movers in machine arithmetic are the movers of the other theorems. -/
theorem C134_exact (h : g ≤ p) (M : Mesh K g) (v : Variant) (bc : Int → τ → BCall K g p ρ → Except Err (τ × Part K p ρ)) (n : Nat)
    (time dt qmdt : K) (accel : Bool) (E : Part K p ρ → Option (Vec K p)) (st : τ × Vec K p) (q : Part K p ρ) :
    Rounded.moveCharged exactly h M v bc n time dt qmdt accel E st q = moveCharged h M v bc n time dt qmdt accel E st q ∧
      Rounded.moveNeutral exactly h M v bc n time dt st q = moveNeutral h M v bc n time dt st q := by
  constructor
  · unfold Rounded.moveCharged moveCharged
    simp only [Rounded.track_exact, Rounded.moveBy_exact]
    rfl
  · unfold Rounded.moveNeutral moveNeutral
    simp only [Rounded.track_exact, Rounded.moveBy_exact]
    rfl

/-- C134.  The same for the move of a whole species. -/
theorem C134_exact_species (h : g ≤ p) (M : Mesh K g) (bc : String → Int → τ → BCall K g p ρ → Except Err (τ × Part K p ρ)) (n : Nat)
    (dt : K) (qom : String → K) (E : String → φ → Part K p ρ → Option (Vec K p)) :
    Rounded.pyMove exactly h M bc n dt qom E = pyMove h M bc n dt qom E := by
  funext sn f c t
  unfold Rounded.pyMove pyMove
  congr 1
  funext st q
  exact (C134_exact h M .charged (bc sn) n t dt (qom sn * dt) false (E sn f) st q).1

/-! ### Simulations -/

/-- A particle that passes the test of the code for the cell it is labelled with, and is not marked for deletion. -/
def PassesTest (A : Arith K g) (h : g ≤ p) (M : Mesh K g) (q : Part K p ρ) : Prop :=
  Rounded.isInside A M (proj h q.x) q.cell = .ok true ∧ q.del = false

/-- C134.  Whatever the arithmetic of the movers and whatever the fields: in a run, after initialization and after every step, every
stored particle of every species passes the test of the code for the cell its cell index names, if this is so for the particles
that sources and initialization put in. -/
theorem C134_run {A : Arith K g} {h : g ≤ p} {M : Mesh K g}
    {bc : String → Int → τ → BCall K g p ρ → Except Err (τ × Part K p ρ)} {maxCross : Nat}
    {qom : String → K} {E : String → φ → Part K p ρ → Option (Vec K p)}
    {cfg : Cfg K V (Part K p ρ) (τ × Vec K p) φ} (hmove : cfg.move = Rounded.pyMove A h M bc maxCross cfg.dt qom E)
    (hcell : ∀ sn, KeepsCell (bc sn))
    (hsrc : ∀ s ∈ cfg.sources, ∀ count time side side' xs, s.make count time side = .ok (side', xs) → ∀ q ∈ xs, PassesTest A h M q)
    {onMesh : Part K p ρ → Bool} {d : Nat → Nat} {sl D C : Nat}
    (hc : GoodCfg cfg) (hm : GoodMesh cfg onMesh d D C) {z : Species.HRow K} (n : Nat)
    {init : Option (List (String × List (Part K p ρ)))} (hinit : ∀ gs, init = some gs → ∀ a ∈ gs, ∀ q ∈ a.2, PassesTest A h M q)
    {st : State K V (Part K p ρ) (τ × Vec K p) φ} {i : Ideal K V (Part K p ρ) (τ × Vec K p)} {b : List K}
    (hf : Fresh sl D C n z st i b) (hnone : st.writer = none → cfg.partEvery = none)
    {i0 : Ideal K V (Part K p ρ) (τ × Vec K p)} {is : List (Ideal K V (Part K p ρ) (τ × Vec K p))}
    (hr : Ideal.run cfg sl D onMesh init b n i = .ok (i0, is)) :
    (∀ j ∈ i0 :: is, ∀ pop ∈ j.pops, ∀ q ∈ pop.st.items, PassesTest A h M q) ∧
    ∃ st', run cfg init n st = .ok st' ∧ ∀ sp ∈ st'.sps, ∃ xs, Stores sp.sap xs ∧ ∀ q ∈ xs, PassesTest A h M q := by
  have keep : ∀ sn f c t, Keeps (PassesTest A h M) (fun _ => True) (Rounded.pyMove A h M bc maxCross cfg.dt qom E sn f c t) := by
    intro sn f c t st i o b q hp
    unfold Rounded.pyMove plainAdv
    cases e : Rounded.moveCharged A h M .charged (bc sn) maxCross t cfg.dt (A.fl (qom sn * cfg.dt)) false (E sn f) st q with
    | error e' => exact ⟨fun _ _ hc => by simp [bind, Except.bind] at hc, fun _ _ => trivial⟩
    | ok r =>
      obtain ⟨st', q', evs⟩ := r
      refine ⟨fun st2 y hc => ?_, fun _ _ => trivial⟩
      simp only [bind, Except.bind, pure, Except.pure, Except.ok.injEq, Prod.mk.injEq] at hc
      obtain ⟨-, rfl, hd⟩ := hc
      have hd : q'.del = false := by simpa using hd
      refine ⟨?_, hd⟩
      rcases (C134_labels (hcell sn) (.inl e)).2 with h1 | h1
      · exact h1.1
      · rw [hd] at h1; cases h1.1
  have hgood : Good (PassesTest A h M) (fun _ => True) cfg onMesh (i.pops.map (·.name)) (fun _ => True) :=
    ⟨trivial, .inr trivial,
      fun s hs => ⟨.inr trivial, .inr trivial, trivial, fun count time side =>
        ⟨fun side' xs e => hsrc s hs _ _ _ _ _ e, fun _ _ => trivial⟩⟩,
      fun sn _ _ f c t => by rw [hmove]; exact keep sn f c t⟩
  have h1 := run_res hgood sl D n (init := init)
    (fun gs hgs a ha => ⟨.inr trivial, hinit gs hgs a ha⟩) b (i := i)
    ⟨fun pop hp q hq => (by rw [hf.empty pop hp] at hq; cases hq), rfl, fun _ _ _ => trivial⟩
    (fun pop hp => by rw [hf.empty pop hp])
  rw [hr] at h1
  have key := C68_run hc hm n init hf hnone
  rw [hr] at key
  obtain ⟨hlen, st', e, ho⟩ := key
  have hlast : ∀ pop ∈ (lastOf i0 is).pops, ∀ q ∈ pop.st.items, PassesTest A h M q := by
    have : lastOf i0 is ∈ i0 :: is := by
      unfold lastOf
      cases hl : is.getLast? with
      | none => simp
      | some j =>
        simp only [Option.getD_some, List.mem_cons]
        exact .inr (List.mem_of_getLast? hl)
    exact fun pop hp => (h1 _ this).all pop hp
  refine ⟨fun j hj pop hp => (h1 j hj).all pop hp, st', e, ?_⟩
  intro sp hsp
  have hpart := ho.particles
  obtain ⟨pop, hpop, hrel⟩ : ∃ pop ∈ (lastOf i0 is).pops, Stores sp.sap pop.st.items := by
    clear * - hpart hsp
    generalize (lastOf i0 is).pops = ps at hpart ⊢
    generalize st'.sps = sps at hpart hsp
    induction hpart with
    | nil => cases hsp
    | @cons a q as qs h1 _ ih =>
      rcases List.mem_cons.1 hsp with rfl | hs
      · exact ⟨q, by simp, h1.2⟩
      · obtain ⟨pop, h2, h3⟩ := ih hs
        exact ⟨pop, by simp [h2], h3⟩
  exact ⟨_, hrel, hlast pop hpop⟩

/-! ### Concrete cases

Machine numbers for the examples: multiples of 1/4 up to 4, integers from there on; rounding to the nearest. -/

def nearest (x : ℚ) : ℚ := if x < 4 then min 4 ((⌊4 * x + 1 / 2⌋ : ℚ) / 4) else ⌊x + 1 / 2⌋

def coarse : Arith ℚ 1 := ⟨nearest, fun u v => nearest (dot u v), Cell.contains⟩

theorem nearest_int {n : ℤ} (h : 4 ≤ n) : nearest n = n := by
  have h' : ¬ ((n : ℚ) < 4) := by rw [not_lt]; exact_mod_cast h
  have : ⌊(n : ℚ) + 1 / 2⌋ = n := by rw [Int.floor_eq_iff]; constructor <;> linarith
  rw [nearest, if_neg h', this]

theorem nearest_quarter {n : ℤ} (h : n ≤ 16) : nearest (n / 4) = n / 4 := by
  rcases lt_or_eq_of_le h with h | rfl
  · have h' : (n : ℚ) / 4 < 4 := by
      have : (n : ℚ) < 16 := by exact_mod_cast h
      linarith
    have : ⌊4 * ((n : ℚ) / 4) + 1 / 2⌋ = n := by rw [Int.floor_eq_iff]; constructor <;> linarith
    rw [nearest, if_pos h', this, min_eq_right h'.le]
  · have := nearest_int (n := 4) le_rfl
    norm_num at this ⊢
    exact this

theorem nearest_idem (a : ℚ) : nearest (nearest a) = nearest a := by
  by_cases h : a < 4
  · have hn : nearest a = min 4 ((⌊4 * a + 1 / 2⌋ : ℚ) / 4) := by rw [nearest, if_pos h]
    rw [hn]
    by_cases h2 : ⌊4 * a + 1 / 2⌋ ≤ 16
    · rw [min_eq_right (by have : (⌊4 * a + 1 / 2⌋ : ℚ) ≤ 16 := by exact_mod_cast h2
                           linarith)]
      exact nearest_quarter h2
    · rw [min_eq_left (by have : (16 : ℚ) < ⌊4 * a + 1 / 2⌋ := by exact_mod_cast not_le.1 h2
                          linarith)]
      exact_mod_cast nearest_int (n := 4) le_rfl
  · have hn : nearest a = ⌊a + 1 / 2⌋ := by rw [nearest, if_neg h]
    rw [hn]
    exact nearest_int (by rw [Int.le_floor]; push_cast; linarith [not_lt.1 h])

theorem coarse_rounding : IsRounding coarse where
  mono a b hab := by
    show nearest a ≤ nearest b
    unfold nearest
    split
    · split
      · have : (⌊4 * a + 1 / 2⌋ : ℚ) ≤ ⌊4 * b + 1 / 2⌋ := by exact_mod_cast Int.floor_le_floor (by linarith)
        exact min_le_min le_rfl (by linarith)
      · rename_i h2
        have : (4 : ℤ) ≤ ⌊b + 1 / 2⌋ := by rw [Int.le_floor]; push_cast; linarith [not_lt.1 h2]
        exact (min_le_left _ _).trans (by exact_mod_cast this)
    · split
      · rename_i h1 h2; exact absurd (hab.trans_lt h2) h1
      · exact_mod_cast Int.floor_le_floor (by linarith)
  idem := nearest_idem
  zero := by decide +kernel
  one := by decide +kernel
  dot _ _ := nearest_idem _

theorem line_complete {x : Nat → K} {N : Nat} {marker : Int → Int} : Complete (lineMesh x N marker) where
  dim := ⟨le_rfl, by decide⟩
  lengths i c hc := by
    unfold lineMesh at hc
    simp only at hc
    split at hc
    · cases hc; simp [lineCell]
    · cases hc
  neighbors i c hc j hj := by
    unfold lineMesh at hc ⊢
    simp only at hc ⊢
    split at hc
    · rename_i h
      cases hc
      simp only [lineCell] at hj
      by_cases h1 : j = -1
      · exact .inl h1
      · refine .inr ⟨_, if_pos ?_⟩
        simp only [List.mem_cons, List.not_mem_nil, or_false] at hj
        rcases hj with hj | hj
        · split at hj <;> omega
        · split at hj <;> omega
    · cases hc

/-- The velocity is changed from -1/4 to -5/4; the particle is reflected at x = 0 and ends at 1/2 (exactly: 3/4).  The recorded time,
fl(4 + fl(1/2 · 1)), is 5, the rounded value of 4.4. -/
def roundedStep : Except Err ((Unit × Vec ℚ 1) × Part ℚ 1 Nat × List (Part ℚ 1 Nat × ℚ)) :=
  Rounded.moveCharged coarse (le_refl 1) demoLine .charged demoBC 10 5 1 1 false (fun _ => some ![-1]) ((), ![0]) (demoPart (1/2) (-1/4) 0 true)

example : demoView roundedStep = .ok [1/2, 0, 5/4, 0, 0, 1, 5] := by decide +kernel

example : demoView (moveCharged (le_refl 1) demoLine .charged demoBC 10 5 1 1 false (fun _ => some ![-1]) ((), ![0])
    (demoPart (1/2) (-1/4) 0 true)) = .ok [3/4, 0, 5/4, 0, 0, 1, 22/5] := by decide +kernel

theorem roundedStep_ok : ∃ st' q' evs, roundedStep = .ok (st', q', evs) ∧ evs ≠ [] := by
  have h : demoView roundedStep = .ok [1/2, 0, 5/4, 0, 0, 1, 5] := by decide +kernel
  cases e : roundedStep with
  | error x => rw [e] at h; cases h
  | ok r =>
    obtain ⟨st', q', evs⟩ := r
    refine ⟨st', q', evs, rfl, ?_⟩
    rintro rfl
    rw [e] at h
    simp [demoView, Except.map] at h

/-- Non-vacuity of `C134_labels` and `C134_times_partial`. -/
example : ∃ st' q' evs, roundedStep = .ok (st', q', evs) ∧ evs ≠ [] ∧ q'.crossings ≤ 10 ∧
    (evs.map Prod.snd).Pairwise (· ≤ ·) ∧ ∀ t ∈ evs.map Prod.snd, 4 ≤ t := by
  obtain ⟨st', q', evs, e, hne⟩ := roundedStep_ok
  have h1 := C134_labels demoBC_keepsCell (.inl e)
  have h2 := C134_times_partial coarse_rounding demoBC_keepsCell (by norm_num) (by decide +kernel) (.inl e)
  have h3 : coarse.fl (5 - 1) = 4 := by decide +kernel
  exact ⟨st', q', evs, e, hne, h1.1, h2.1, by rw [h3] at h2; exact h2.2⟩

/-- Non-vacuity of `C134_fraction`. -/
example : ∃ facet f n, Rounded.findFacet coarse demoLine ![1/2] ![3/4] 0 = .ok (facet, f, n) ∧ 0 ≤ f ∧ f ≤ 1 ∧ -1 ≤ facet ∧ facet < 2 :=
  C134_fraction coarse_rounding line_complete (ci := 0) (c := lineCell (fun i => (i : ℚ)) 3 0) rfl _ _

/-- Non-vacuity of `C134_errors_partial`: a particle that reaches an absorbing boundary. -/
example : (∃ r, Rounded.moveCharged coarse (le_refl 1) demoLine .charged sinkBC 10 5 1 1 false (fun _ => none) ((), ![0])
      (demoPart (1/2) (-3/4) 0 true) = .ok r) ∨
    ∃ x ∈ [Err.tooMany, .noFacet, .sameFacet], Rounded.moveCharged coarse (le_refl 1) demoLine .charged sinkBC 10 5 1 1 false
      (fun _ => none) ((), ![0]) (demoPart (1/2) (-3/4) 0 true) = .error (Variant.charged.err x) :=
  C134_errors_partial coarse_rounding line_complete rfl sinkBC_keepsCell
    (fun _ _ _ => ⟨_, rfl⟩) (c := lineCell (fun i => (i : ℚ)) 3 0) rfl

/-- C134 is false for the end of the step: with a monotone rounding a crossing time is recorded that is later than the end of the
step, though the facet is crossed in the step.  Time 9/2 is rounded to 5, and the fraction 1 of a step of 1/2 is added. -/
theorem C134_false_late : ∃ (A : Arith ℚ 1) (M : Mesh ℚ 1) (q : Part ℚ 1 Nat) (time dt : ℚ), IsRounding A ∧ M.Conforming ∧
    InItsCell (le_refl 1) M q ∧ (∀ y ∈ [time, dt, q.x 0, q.u 0], A.fl y = y) ∧ 0 ≤ dt ∧
    ∃ t, (Rounded.moveCharged A (le_refl 1) M .charged demoBC 10 time dt 1 false (fun _ => none) ((), ![0]) q).map
      (fun r => r.2.2.map Prod.snd) = .ok [t] ∧ time < t :=
  ⟨coarse, lineMesh (fun i => 3 * i) 1 (fun _ => 2), demoPart (5/4) 4 0 true, 5, 1/2, coarse_rounding,
    lineMesh_conforming (fun i _ => by push_cast; linarith) (by decide) (by decide), by unfold InItsCell; decide +kernel,
    by decide +kernel, by norm_num, 6, by decide +kernel, by norm_num⟩

/-- C134 is false for the errors: with a monotone rounding a particle that is in its cell and leaves it in the step makes the mover
raise the RuntimeError of a particle that leaves its cell through no facet; in exact arithmetic the same step succeeds.  The way to
the facet, 4.75, is rounded to the whole way, 5. -/
theorem C134_false_no_facet : ∃ (A : Arith ℚ 1) (M : Mesh ℚ 1) (q : Part ℚ 1 Nat) (time dt : ℚ), IsRounding A ∧ M.Conforming ∧
    InItsCell (le_refl 1) M q ∧ (∀ y ∈ [time, dt, q.x 0, q.u 0], A.fl y = y) ∧
    (Rounded.moveCharged A (le_refl 1) M .charged demoBC 10 time dt 1 false (fun _ => none) ((), ![0]) q).map (fun _ => ()) =
      .error .noFacet ∧
    (moveCharged (le_refl 1) M .charged demoBC 10 time dt 1 false (fun _ => none) ((), ![0]) q).map (fun _ => ()) = .ok () :=
  ⟨coarse, lineMesh (fun i => (-3) + 11 / 2 * i) 1 (fun _ => 2), demoPart (-9/4) 10 0 true, 5, 1/2, coarse_rounding,
    lineMesh_conforming (fun i _ => by push_cast; linarith) (by decide) (by decide), by unfold InItsCell; decide +kernel,
    by decide +kernel, by decide +kernel, by decide +kernel⟩

/-- The simulation of Props/Simulation.lean with movers in coarse arithmetic. -/
def coarseCfg : Cfg ℚ ℚ SimPart (Unit × Vec ℚ 1) (List ℚ) :=
  { simCfg [simSource] with move := Rounded.pyMove coarse (le_refl 1) demoLine (fun _ => sinkBC) 3 (1 / 2) (fun _ => -1) simField }

theorem coarse_good : GoodCfg coarseCfg := by
  have h := sim_good [simSource]
  exact ⟨h.1, h.2, h.3, h.4, h.5⟩

theorem coarse_mesh : GoodMesh coarseCfg onSim (fun k => k) 4 3 := by
  have h := sim_mesh [simSource]
  exact ⟨h.1, h.2, h.3⟩

/-- Non-vacuity of `C134_run`: three steps, with a particle that leaves and a source. -/
example : ∃ st', run coarseCfg (some simInit) 3 (simState 3) = .ok st' ∧
    ∀ sp ∈ st'.sps, ∃ xs, Stores sp.sap xs ∧ ∀ q ∈ xs, PassesTest coarse (le_refl 1) demoLine q := by
  have hv : simView (Ideal.run coarseCfg 2 4 onSim (some simInit) [0, 0, 0, 0] 3 simIdeal) =
      some [[(0, 0), (1, 0), (2, 0)], [(0, 0), (1, 1)], [(1, 1), (0, 1)], [(1, 0), (0, 0)]] := by decide +kernel
  cases e : Ideal.run coarseCfg 2 4 onSim (some simInit) [0, 0, 0, 0] 3 simIdeal with
  | error f => rw [e] at hv; cases hv
  | ok r =>
    refine (C134_run (cfg := coarseCfg) rfl (fun _ => sinkBC_keepsCell) ?_ coarse_good coarse_mesh 3 ?_ (sim_fresh 3)
      (fun h => by cases h) e).2
    · intro s hs count time side side' xs e q hq
      have := sim_sources s hs count time side side' xs e q hq
      exact ⟨this.1, this.2⟩
    · intro gs hgs a ha q hq
      have := sim_init gs hgs a ha q hq
      exact ⟨this.1, this.2⟩

end Dt
