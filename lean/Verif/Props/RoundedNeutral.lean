import Verif.Props.RoundedTwin
import Verif.Model.RoundedTwin

/-!
# Neutral particles move alike to the last bit in Python and in compiled code (C135)
-/

set_option linter.unusedSectionVars false

namespace Dt
open SAP Spec CppMover
variable {K : Type} [Field K] [LinearOrder K] [IsStrictOrderedRing K] {g p : Nat} {τ ρ : Type}

namespace RoundedNeutral
open RoundedTwin (usable usable_some usable_none findFacet_same sameOk_toOption bind_rel inside_same)

/-- Forget the times and the move vector. -/
def bare (s : Trk K p τ ρ) : Trk K p τ ρ := { s with tStart := 0, rem := 0, dxS := 0, events := s.events.map (fun e => (e.1, 0)) }

theorem bare_iff {s t : Trk K p τ ρ} : bare s = bare t ↔ s.st = t.st ∧ s.part = t.part ∧ s.cell = t.cell ∧ s.last = t.last ∧
    s.count = t.count ∧ s.events.map Prod.fst = t.events.map Prod.fst := by
  have hm : ∀ l m : List (Part K p ρ × K), l.map (fun e => (e.1, (0 : K))) = m.map (fun e => (e.1, (0 : K))) ↔ l.map Prod.fst = m.map Prod.fst := by
    intro l m
    constructor
    · intro e
      have := congrArg (List.map Prod.fst) e
      simpa [List.map_map, Function.comp_def] using this
    · intro e
      have := congrArg (List.map (fun q : Part K p ρ => (q, (0 : K)))) e
      simpa [List.map_map, Function.comp_def] using this
  unfold bare
  simp only [Trk.mk.injEq, hm, true_and]

theorem marked_same {bcC bcP : Int → τ → BCall K g p ρ → Except Err (τ × Part K p ρ)}
    (hbc : ∀ v st c, SameOk (bcC v st c) (bcP v st c))
    (hnd : ∀ v st c d, bcP v st { c with dx := d } = bcP v st c) (value : Int) (f : K) (n : Option (Vec K g)) (mf : Int) {s t : Trk K p τ ρ}
    (h : bare s = bare t) :
    (cppAtMarked bcC value f n mf s).toOption.map bare = (atMarked .neutral bcP value f n mf t).toOption.map bare := by
  obtain ⟨h1, h2, h3, h4, h5, h7⟩ := bare_iff.1 h
  have hev : crossEvents .neutral t = .ok (if t.part.traj then [(t.part, t.tStart)] else []) := by
    unfold crossEvents
    cases t.part.traj <;> rfl
  have hb := sameOk_toOption (hbc value s.st ⟨s.part, mf, f, n, s.dxS⟩)
  unfold cppAtMarked atMarked
  rw [hev]
  rw [show bcP value s.st ⟨s.part, mf, f, n, s.dxS⟩ = bcP value s.st ⟨s.part, mf, f, n, t.dxS⟩ from
    (hnd value s.st ⟨s.part, mf, f, n, s.dxS⟩ t.dxS).symm] at hb
  rw [h1, h2] at hb ⊢
  refine bind_rel (F := id) (G := id) (by simpa using hb) ?_
  rintro ⟨u, q⟩ y hy
  simp only [id] at hy
  subst hy
  simp only [pure, Except.pure, Except.toOption, Option.map_some, Option.some.injEq]
  rw [bare_iff]
  refine ⟨rfl, rfl, h3, h4, h5, ?_⟩
  simp only [List.map_append, h7]
  cases t.part.traj <;> simp

theorem next_same {cc : CppMeshCell K} {c : Cell K g} (hnb : cc.neighbors = c.neighbors) {k : Int} (hk : 0 ≤ k) {s t : Trk K p τ ρ}
    (h : bare s = bare t) :
    (cppNextCell cc k s).toOption.map (fun r => (bare r.1, r.2)) = (nextCell c k t).toOption.map (fun r => (bare r.1, r.2)) := by
  obtain ⟨h1, h2, h3, h4, h5, h7⟩ := bare_iff.1 h
  unfold cppNextCell nextCell
  rw [cGet_py _ hk, hnb]
  cases pyGet c.neighbors k with
  | error x => rfl
  | ok new =>
    simp only [bind, Except.bind, h2]
    split
    · split
      · simp only [pure, Except.pure, Except.toOption, Option.map_some, Option.some.injEq, Prod.mk.injEq, and_true]
        rw [bare_iff]; exact ⟨h1, rfl, h3, h4, h5, h7⟩
      · simp only [pure, Except.pure, Except.toOption, Option.map_some, Option.some.injEq, Prod.mk.injEq, and_true]
        exact h
    · simp only [pure, Except.pure, Except.toOption, Option.map_some, Option.some.injEq, Prod.mk.injEq, and_true]
      rw [bare_iff]; exact ⟨h1, rfl, rfl, h4, h5, h7⟩

theorem cross_same {C : CArith K} {A : Arith K g} (hC : IsCRounding C) (hA : IsRounding A) (hS : SameMachine C A) {cm : CppMesh K} {M : Mesh K g}
    (ht : cm.Twin M) (h : g ≤ p) {L : Layout K p} (hL : L.Right) {bcC bcP : Int → τ → BCall K g p ρ → Except Err (τ × Part K p ρ)}
    (hbc : ∀ v st c, SameOk (bcC v st c) (bcP v st c))
    (hnd : ∀ v st c d, bcP v st { c with dx := d } = bcP v st c) (sc : Scratch K) {s t : Trk K p τ ρ} (hst : bare s = bare t) :
    (CppRounded.crossOnce C h L cm bcC sc s).toOption.map (fun r => (bare r.1, r.2.1)) =
      (Rounded.crossOnce A h M .neutral bcP t).toOption.map (fun r => (bare r.1, r.2)) := by
  obtain ⟨h1, h2, h3, h4, h5, h7⟩ := bare_iff.1 hst
  unfold CppRounded.crossOnce Rounded.crossOnce
  have hx : ∀ i : Fin p, L.fill sc t.part.x t.part.x0 i = t.part.x i := fun i => (hL sc t.part.x t.part.x0 i).1
  have hx0 : ∀ i : Fin p, L.fill sc t.part.x t.part.x0 (L.off + i) = t.part.x0 i := fun i => (hL sc t.part.x t.part.x0 i).2.1
  have hsh : Variant.neutral.sharesDx = false := rfl
  simp only [h2, h3, h4, h5, hx, hx0, fill_from hL h, hS.fl, hS.mulAdd, hsh, Bool.false_eq_true, if_false, ht.marker]
  cases hc : M.cell t.cell with
  | none =>
    obtain ⟨x, e1⟩ : ∃ x, cm.lookup t.cell = .error x := by unfold CppMesh.lookup; rw [ht.none_ _ hc]; exact ⟨_, rfl⟩
    obtain ⟨y, e2⟩ : ∃ x, M.lookup t.cell = .error x := by unfold Mesh.lookup; rw [hc]; exact ⟨_, rfl⟩
    rw [e1]
    simp only [bind, Except.bind, e2]
    cases Rounded.findFacet A M (proj h t.part.x0) (proj h fun i => A.fl (t.part.x i - t.part.x0 i)) t.cell with
    | error z => rfl
    | ok r => simp only; split <;> rfl
  | some c =>
    obtain ⟨hr, cc, hcc, tw⟩ := ht.cells _ c hc
    have e1 : cm.lookup t.cell = .ok cc := by unfold CppMesh.lookup; rw [hcc]
    have e2 : M.lookup t.cell = .ok c := by unfold Mesh.lookup; rw [hc]
    have hU := findFacet_same hA hS hc hr.dim hr.verts hr.normals tw.geo (proj h t.part.x0) (proj h fun i => A.fl (t.part.x i - t.part.x0 i))
    simp only [bind, Except.bind, e1, e2]
    cases hu : usable (Rounded.findFacet A M (proj h t.part.x0) (proj h fun i => A.fl (t.part.x i - t.part.x0 i)) t.cell) with
    | none =>
      rw [hu] at hU
      rcases usable_none hU with ⟨x, eC⟩ | ⟨f, n, eC⟩ <;> rcases usable_none hu with ⟨y, eP⟩ | ⟨f', n', eP⟩ <;> rw [eC, eP] <;>
        simp [noFacet, Except.toOption]
    | some r =>
      rw [hu] at hU
      obtain ⟨eC, hk⟩ := usable_some hU
      obtain ⟨eP, -⟩ := usable_some hu
      obtain ⟨k, f, n⟩ := r
      have hk0 : 0 ≤ k := by
        have := (CppRounded.findFacet_range hC eC).2.1
        simp only at hk
        omega
      rw [eC, eP]
      simp only [noFacet] at hk ⊢
      rw [if_neg hk, if_neg hk, cGet_py _ hk0, tw.facets]
      cases pyGet c.facets k with
      | error x => rfl
      | ok mf =>
        simp only
        split
        · rfl
        · have hnext : ∀ (a b : Except Err (Trk K p τ ρ)), a.toOption.map bare = b.toOption.map bare →
              ((a.bind (fun s2 => (cppNextCell cc k s2).bind (fun r => .ok (r.1, r.2, L.fill sc t.part.x t.part.x0)))).toOption.map (fun r => (bare r.1, r.2.1))) =
              ((b.bind (fun s2 => nextCell c k s2)).toOption.map (fun r => (bare r.1, r.2))) := by
            intro a b hab
            refine bind_rel hab (fun x y hxy => ?_)
            have := next_same (s := x) (t := y) tw.neighbors hk0 hxy
            cases h8 : cppNextCell cc k x with
            | error z => rw [h8] at this; rw [← this]; rfl
            | ok z => rw [h8] at this; rw [← this]; rfl
          split
          · exact hnext _ _ (marked_same hbc hnd _ _ _ _ (bare_iff.2 ⟨h1, rfl, rfl, rfl, rfl, h7⟩))
          · refine hnext (.ok _) (.ok _) ?_
            simp only [Except.toOption, Option.map_some, Option.some.injEq]
            exact bare_iff.2 ⟨h1, rfl, rfl, rfl, rfl, h7⟩

theorem track_same {C : CArith K} {A : Arith K g} (hC : IsCRounding C) (hA : IsRounding A) (hS : SameMachine C A) {cm : CppMesh K} {M : Mesh K g}
    (ht : cm.Twin M) (h : g ≤ p) (hI : SameTest C A h cm M) {L : Layout K p} (hL : L.Right)
    {bcC bcP : Int → τ → BCall K g p ρ → Except Err (τ × Part K p ρ)} (hbc : ∀ v st c, SameOk (bcC v st c) (bcP v st c))
    (hnd : ∀ v st c d, bcP v st { c with dx := d } = bcP v st c) (n : Nat) :
    ∀ (sc : Scratch K) {s t : Trk K p τ ρ} (_ : bare s = bare t),
      (CppRounded.track C h L cm bcC n sc s).toOption.map (fun r => bare r.1) =
        (Rounded.track A h M .neutral bcP n t).toOption.map bare := by
  induction n with
  | zero =>
    intro sc s t hst
    obtain ⟨-, h2, h3, -⟩ := bare_iff.1 hst
    unfold CppRounded.track Rounded.track
    refine bind_rel (F := id) (G := id) (by rw [h2, h3, inside_same ht h hI]) ?_
    rintro x y rfl
    cases x
    · rfl
    · simp only [id, if_true, Except.toOption, Option.map_some, hst]
  | succ n ih =>
    intro sc s t hst
    obtain ⟨-, h2, h3, -⟩ := bare_iff.1 hst
    unfold CppRounded.track Rounded.track
    refine bind_rel (F := id) (G := id) (by rw [h2, h3, inside_same ht h hI]) ?_
    rintro x y rfl
    cases x
    · simp only [id, Bool.false_eq_true, if_false]
      refine bind_rel (cross_same hC hA hS ht h hL hbc hnd sc hst) ?_
      rintro ⟨s', brk, sc'⟩ ⟨t', brk'⟩ hxy
      simp only [Prod.mk.injEq] at hxy
      obtain ⟨hb, rfl⟩ := hxy
      cases brk
      · exact ih sc' hb
      · simp only [if_true, Except.toOption, Option.map_some, hb]
    · simp only [id, if_true, Except.toOption, Option.map_some, hst]

end RoundedNeutral

open RoundedNeutral in
open RoundedTwin (bind_rel) in
/-- **C135 (neutral particles).** One step of a neutral particle in machine arithmetic, in Python and in compiled code (where it is the step of a
charged particle without field), under the conditions of `C135_same_bits_partial`, if the callbacks do not look at the move vector (which
the Python mover does not keep up to date, C31): one succeeds exactly if the other does, and then the particles, the user states and the
particles in the recorded crossings are the same to the last bit. -/
theorem C135_neutral_partial {C : CArith K} {A : Arith K g} (hC : IsCRounding C) (hA : IsRounding A) (hS : SameMachine C A) {cm : CppMesh K}
    {M : Mesh K g} (ht : cm.Twin M) (h : g ≤ p) (hI : SameTest C A h cm M) {L : Layout K p} (hL : L.Right)
    {bcC bcP : Int → τ → BCall K g p ρ → Except Err (τ × Part K p ρ)} (hbc : ∀ v st c, SameOk (bcC v st c) (bcP v st c))
    (hnd : ∀ v st c d, bcP v st { c with dx := d } = bcP v st c) (n : Nat)
    (time dt : K) (u : τ) (d d2 : Vec K p) (sc : Scratch K) (q : Part K p ρ) :
    (CppRounded.moveNeutral C h L cm bcC n time dt ((u, d), sc) q).toOption.map (fun r => (r.1.1.1, r.2.1, r.2.2.map Prod.fst)) =
      (Rounded.moveNeutral A h M .neutral bcP n time dt (u, d2) q).toOption.map (fun r => (r.1.1, r.2.1, r.2.2.map Prod.fst)) := by
  unfold CppRounded.moveNeutral Rounded.moveNeutral
  have hmv : CppRounded.moveBy C dt q = Rounded.moveBy A dt q := by
    unfold CppRounded.moveBy Rounded.moveBy
    simp only [hS.mulAdd]
  simp only [hmv]
  refine bind_rel (RoundedNeutral.track_same hC hA hS ht h hI hL hbc hnd n sc (s := CppRounded.startTrk C time dt u d _)
    (t := Rounded.startTrk A time dt u d2 _) ?_) ?_
  · unfold CppRounded.startTrk Rounded.startTrk
    rw [bare_iff]
    exact ⟨rfl, rfl, rfl, rfl, rfl, rfl⟩
  · rintro ⟨s, sc'⟩ t hst
    obtain ⟨h1, h2, h3, h4, h5, h7⟩ := bare_iff.1 hst
    simp only at h1 h2 h5 h7
    simp only [pure, Except.pure, Except.toOption, Option.map_some, h1, h2, h5, h7]

/-- C135.  In exact arithmetic the compiled neutral mover in machine arithmetic is the one of the other theorems. -/
theorem C135_neutral_exact (h : g ≤ p) (L : Layout K p) (M : CppMesh K) (bc : Int → τ → BCall K g p ρ → Except Err (τ × Part K p ρ))
    (n : Nat) (time dt : K) (st : (τ × Vec K p) × Scratch K) (q : Part K p ρ) :
    CppRounded.moveNeutral cExactly h L M bc n time dt st q = cppMoveNeutral h L M bc n time dt st q := by
  unfold cppMoveNeutral
  rw [← C134_compiled_exact]
  rfl

/-- A neutral particle leaves the line of three cells through its right end. -/
example : (CppRounded.moveNeutral coarseC (le_refl 1) layoutX demoLineCpp sinkBC 10 5 1 (((), ![0]), fun _ => 99)
      (demoPart (3/2) (9/4) 1 true)).toOption.map (fun r => (r.1.1.1, r.2.1, r.2.2.map Prod.fst)) =
    (Rounded.moveNeutral coarse (le_refl 1) demoLine .neutral sinkBC 10 5 1 ((), ![7])
      (demoPart (3/2) (9/4) 1 true)).toOption.map (fun r => (r.1.1, r.2.1, r.2.2.map Prod.fst)) ∧
    ((CppRounded.moveNeutral coarseC (le_refl 1) layoutX demoLineCpp sinkBC 10 5 1 (((), ![0]), fun _ => 99)
      (demoPart (3/2) (9/4) 1 true)).map (fun r => (r.2.1.crossings, r.2.1.del))).toOption = some (2, true) :=
  ⟨C135_neutral_partial coarseC_rounding coarse_rounding coarse_same demoLineCpp_twin (le_refl 1) (coarse_test demoLineCpp_twin)
    C66_layouts.1 (fun _ _ _ _ => Iff.rfl) (fun _ _ _ _ => rfl) 10 5 1 _ _ _ _ _, by decide +kernel⟩

end Dt
