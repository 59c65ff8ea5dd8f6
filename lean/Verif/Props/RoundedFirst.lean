import Verif.Props.RoundedTwin

/-!
# Recorded times agree up to the first crossing (C135)
-/

set_option linter.unusedSectionVars false

namespace Dt
open SAP Spec CppMover
variable {K : Type} [Field K] [LinearOrder K] [IsStrictOrderedRing K] {g p : Nat} {τ ρ : Type}

namespace RoundedFirst
open RoundedTwin (usable usable_some usable_none findFacet_same sameOk_toOption bind_rel inside_same)

/-- Forget the time left. -/
def bare (s : Trk K p τ ρ) : Trk K p τ ρ := { s with rem := 0 }

theorem bare_iff {s t : Trk K p τ ρ} : bare s = bare t ↔ s.st = t.st ∧ s.part = t.part ∧ s.cell = t.cell ∧ s.last = t.last ∧
    s.count = t.count ∧ s.dxS = t.dxS ∧ s.events = t.events ∧ s.tStart = t.tStart := by
  unfold bare
  simp only [Trk.mk.injEq]
  tauto

theorem marked_same {bcC bcP : Int → τ → BCall K g p ρ → Except Err (τ × Part K p ρ)}
    (hbc : ∀ v st c, SameOk (bcC v st c) (bcP v st c)) (value : Int) (f : K) (n : Option (Vec K g)) (mf : Int) {s t : Trk K p τ ρ}
    (h : bare s = bare t) :
    (cppAtMarked bcC value f n mf s).toOption.map bare = (atMarked .charged bcP value f n mf t).toOption.map bare := by
  obtain ⟨h1, h2, h3, h4, h5, h6, h7, h8⟩ := bare_iff.1 h
  have hev : crossEvents .charged t = .ok (if t.part.traj then [(t.part, t.tStart)] else []) := by
    unfold crossEvents
    cases t.part.traj <;> rfl
  have hb := sameOk_toOption (hbc value s.st ⟨s.part, mf, f, n, s.dxS⟩)
  unfold cppAtMarked atMarked
  rw [hev]
  rw [h1, h2, h6] at hb ⊢
  refine bind_rel (F := id) (G := id) (by simpa using hb) ?_
  rintro ⟨u, q⟩ y hy
  simp only [id] at hy
  subst hy
  simp only [pure, Except.pure, Except.toOption, Option.map_some, Option.some.injEq]
  rw [bare_iff]
  exact ⟨rfl, rfl, h3, h4, h5, rfl, by simp only [h7, h8], h8⟩

theorem next_same {cc : CppMeshCell K} {c : Cell K g} (hnb : cc.neighbors = c.neighbors) {k : Int} (hk : 0 ≤ k) {s t : Trk K p τ ρ}
    (h : bare s = bare t) :
    (cppNextCell cc k s).toOption.map (fun r => (bare r.1, r.2)) = (nextCell c k t).toOption.map (fun r => (bare r.1, r.2)) := by
  obtain ⟨h1, h2, h3, h4, h5, h6, h7, h8⟩ := bare_iff.1 h
  unfold cppNextCell nextCell
  rw [cGet_py _ hk, hnb]
  cases pyGet c.neighbors k with
  | error x => rfl
  | ok new =>
    simp only [bind, Except.bind, h2]
    split
    · split
      · simp only [pure, Except.pure, Except.toOption, Option.map_some, Option.some.injEq, Prod.mk.injEq, and_true]
        rw [bare_iff]; exact ⟨h1, rfl, h3, h4, h5, h6, h7, h8⟩
      · simp only [pure, Except.pure, Except.toOption, Option.map_some, Option.some.injEq, Prod.mk.injEq, and_true]
        exact h
    · simp only [pure, Except.pure, Except.toOption, Option.map_some, Option.some.injEq, Prod.mk.injEq, and_true]
      rw [bare_iff]; exact ⟨h1, rfl, rfl, h4, h5, h6, h7, h8⟩

theorem cross_same {C : CArith K} {A : Arith K g} (hC : IsCRounding C) (hA : IsRounding A) (hS : SameMachine C A) {cm : CppMesh K} {M : Mesh K g}
    (ht : cm.Twin M) (h : g ≤ p) {L : Layout K p} (hL : L.Right) {bcC bcP : Int → τ → BCall K g p ρ → Except Err (τ × Part K p ρ)}
    (hbc : ∀ v st c, SameOk (bcC v st c) (bcP v st c)) (sc : Scratch K) (t : Trk K p τ ρ) :
    (CppRounded.crossOnce C h L cm bcC sc t).toOption.map (fun r => (bare r.1, r.2.1)) =
      (Rounded.crossOnce A h M .charged bcP t).toOption.map (fun r => (bare r.1, r.2)) := by
  unfold CppRounded.crossOnce Rounded.crossOnce
  have hx : ∀ i : Fin p, L.fill sc t.part.x t.part.x0 i = t.part.x i := fun i => (hL sc t.part.x t.part.x0 i).1
  have hx0 : ∀ i : Fin p, L.fill sc t.part.x t.part.x0 (L.off + i) = t.part.x0 i := fun i => (hL sc t.part.x t.part.x0 i).2.1
  have hsh : Variant.charged.sharesDx = true := rfl
  simp only [hx, hx0, fill_from hL h, hS.fl, hS.mulAdd, hsh, if_true, ht.marker]
  cases hc : M.cell t.cell with
  | none =>
    obtain ⟨x, e1⟩ : ∃ x, cm.lookup t.cell = .error x := by unfold CppMesh.lookup; rw [ht.none_ _ hc]; exact ⟨_, rfl⟩
    obtain ⟨y, e2⟩ : ∃ x, M.lookup t.cell = .error x := by unfold Mesh.lookup; rw [hc]; exact ⟨_, rfl⟩
    rw [e1]
    simp only [bind, Except.bind, e2]
    cases Rounded.findFacet A M (proj h t.part.x0) (proj h fun i => A.fl (t.part.x i - t.part.x0 i)) t.cell with
    | error z => rfl
    | ok r => simp only; split <;> rfl
  | some c =>
    obtain ⟨hr, cc, hcc, tw⟩ := ht.cells _ c hc
    have e1 : cm.lookup t.cell = .ok cc := by unfold CppMesh.lookup; rw [hcc]
    have e2 : M.lookup t.cell = .ok c := by unfold Mesh.lookup; rw [hc]
    have hU := findFacet_same hA hS hc hr.dim hr.verts hr.normals tw.geo (proj h t.part.x0) (proj h fun i => A.fl (t.part.x i - t.part.x0 i))
    simp only [bind, Except.bind, e1, e2]
    cases hu : usable (Rounded.findFacet A M (proj h t.part.x0) (proj h fun i => A.fl (t.part.x i - t.part.x0 i)) t.cell) with
    | none =>
      rw [hu] at hU
      rcases usable_none hU with ⟨x, eC⟩ | ⟨f, n, eC⟩ <;> rcases usable_none hu with ⟨y, eP⟩ | ⟨f', n', eP⟩ <;> rw [eC, eP] <;>
        simp [noFacet, Except.toOption]
    | some r =>
      rw [hu] at hU
      obtain ⟨eC, hk⟩ := usable_some hU
      obtain ⟨eP, -⟩ := usable_some hu
      obtain ⟨k, f, n⟩ := r
      have hk0 : 0 ≤ k := by
        have := (CppRounded.findFacet_range hC eC).2.1
        simp only at hk
        omega
      rw [eC, eP]
      simp only [noFacet] at hk ⊢
      rw [if_neg hk, if_neg hk, cGet_py _ hk0, tw.facets]
      cases pyGet c.facets k with
      | error x => rfl
      | ok mf =>
        simp only
        split
        · rfl
        · have hnext : ∀ (a b : Except Err (Trk K p τ ρ)), a.toOption.map bare = b.toOption.map bare →
              ((a.bind (fun s2 => (cppNextCell cc k s2).bind (fun r => .ok (r.1, r.2, L.fill sc t.part.x t.part.x0)))).toOption.map (fun r => (bare r.1, r.2.1))) =
              ((b.bind (fun s2 => nextCell c k s2)).toOption.map (fun r => (bare r.1, r.2))) := by
            intro a b hab
            refine bind_rel hab (fun x y hxy => ?_)
            have := next_same (s := x) (t := y) tw.neighbors hk0 hxy
            cases h8 : cppNextCell cc k x with
            | error z => rw [h8] at this; rw [← this]; rfl
            | ok z => rw [h8] at this; rw [← this]; rfl
          split
          · exact hnext _ _ (marked_same hbc _ _ _ _ (bare_iff.2 ⟨rfl, rfl, rfl, rfl, rfl, rfl, rfl, rfl⟩))
          · refine hnext (.ok _) (.ok _) ?_
            simp only [Except.toOption, Option.map_some, Option.some.injEq]
            exact bare_iff.2 ⟨rfl, rfl, rfl, rfl, rfl, rfl, rfl, rfl⟩

theorem marked_count {bc : Int → τ → BCall K g p ρ → Except Err (τ × Part K p ρ)} {value : Int} {f : K} {n : Option (Vec K g)} {mf : Int}
    {s s' : Trk K p τ ρ} (e : cppAtMarked bc value f n mf s = .ok s') : s'.count = s.count := by
  unfold cppAtMarked at e
  cases h : bc value s.st ⟨s.part, mf, f, n, s.dxS⟩ with
  | error x => rw [h] at e; cases e
  | ok r => rw [h] at e; cases e; rfl

theorem next_count {c : CppMeshCell K} {k : Int} {s s' : Trk K p τ ρ} {brk : Bool} (e : cppNextCell c k s = .ok (s', brk)) :
    s'.count = s.count := by
  unfold cppNextCell at e
  cases h : cGet c.neighbors k with
  | error x => rw [h] at e; cases e
  | ok new =>
    rw [h] at e
    simp only [bind, Except.bind, pure, Except.pure] at e
    split at e
    · split at e <;> (cases e; rfl)
    · cases e; rfl

theorem cross_count {A : CArith K} {h : g ≤ p} {L : Layout K p} {M : CppMesh K}
    {bc : Int → τ → BCall K g p ρ → Except Err (τ × Part K p ρ)} {sc sc' : Scratch K} {s s' : Trk K p τ ρ} {brk : Bool}
    (e : CppRounded.crossOnce A h L M bc sc s = .ok (s', brk, sc')) : s'.count = s.count + 1 := by
  unfold CppRounded.crossOnce at e
  simp only [bind, Except.bind] at e
  repeat' split at e
  all_goals first | (cases e; done) | skip
  · rename_i h1 _ _ h2
    cases e
    rw [next_count h2, marked_count h1]
  · rename_i _ _ h2
    cases e
    rw [next_count h2]

theorem track_count {A : CArith K} {h : g ≤ p} {L : Layout K p} {M : CppMesh K}
    {bc : Int → τ → BCall K g p ρ → Except Err (τ × Part K p ρ)} (n : Nat) {sc sc' : Scratch K} {s s' : Trk K p τ ρ}
    (e : CppRounded.track A h L M bc n sc s = .ok (s', sc')) : s.count ≤ s'.count :=
  CppRounded.track_rule (P := fun _ t => s.count ≤ t.count) (Q := fun t => s.count ≤ t.count)
    (fun _ _ _ _ _ hp e => by rw [cross_count e]; omega) (fun _ _ _ _ _ hp e => by rw [cross_count e]; omega)
    (fun _ _ hp _ => hp) n sc sc' s s' le_rfl e

theorem track_first {C : CArith K} {A : Arith K g} (hC : IsCRounding C) (hA : IsRounding A) (hS : SameMachine C A) {cm : CppMesh K} {M : Mesh K g}
    (ht : cm.Twin M) (h : g ≤ p) (hI : SameTest C A h cm M) {L : Layout K p} (hL : L.Right)
    {bcC bcP : Int → τ → BCall K g p ρ → Except Err (τ × Part K p ρ)} (hbc : ∀ v st c, SameOk (bcC v st c) (bcP v st c)) (n : Nat)
    {sc sc' : Scratch K} {s s' t' : Trk K p τ ρ} (e1 : CppRounded.track C h L cm bcC n sc s = .ok (s', sc'))
    (e2 : Rounded.track A h M .charged bcP n s = .ok t') (hcount : s'.count ≤ s.count + 1) : s'.events = t'.events := by
  have in0 := inside_same ht h hI s.part.x s.cell
  cases i1 : CppRounded.isInside C g cm s.part.x s.cell with
  | error x => unfold CppRounded.track at e1; rw [i1] at e1; cases e1
  | ok b =>
    cases i2 : Rounded.isInside A M (proj h s.part.x) s.cell with
    | error x => unfold Rounded.track at e2; rw [i2] at e2; cases e2
    | ok b' =>
      rw [i1, i2] at in0
      cases in0
      unfold CppRounded.track at e1
      unfold Rounded.track at e2
      rw [i1] at e1
      rw [i2] at e2
      cases b with
      | true => cases e1; cases e2; rfl
      | false =>
        cases n with
        | zero => cases e1
        | succ n =>
          simp only [bind, Except.bind, Bool.false_eq_true, if_false] at e1 e2
          have key := cross_same hC hA hS ht h hL hbc sc s
          cases c1 : CppRounded.crossOnce C h L cm bcC sc s with
          | error x => rw [c1] at e1; cases e1
          | ok r1 =>
            cases c2 : Rounded.crossOnce A h M .charged bcP s with
            | error x => rw [c2] at e2; cases e2
            | ok r2 =>
              rw [c1, c2] at key
              rw [c1] at e1
              rw [c2] at e2
              obtain ⟨s1, brk, sc1⟩ := r1
              obtain ⟨t1, brk'⟩ := r2
              simp only [Except.toOption, Option.map_some, Option.some.injEq, Prod.mk.injEq] at key
              obtain ⟨hb, rfl⟩ := key
              obtain ⟨-, k2, k3, -, -, -, k7, -⟩ := bare_iff.1 hb
              have hn := cross_count c1
              simp only at e1 e2
              cases brk with
              | true => cases e1; cases e2; exact k7
              | false =>
                simp only [Bool.false_eq_true, if_false] at e1 e2
                have in1 := inside_same ht h hI s1.part.x s1.cell
                rw [k2, k3] at in1
                unfold CppRounded.track at e1
                unfold Rounded.track at e2
                rw [k2, k3] at e1
                cases j1 : CppRounded.isInside C g cm t1.part.x t1.cell with
                | error x => rw [j1] at e1; cases e1
                | ok b =>
                  cases j2 : Rounded.isInside A M (proj h t1.part.x) t1.cell with
                  | error x => rw [j2] at e2; cases e2
                  | ok b' =>
                    rw [j1, j2] at in1
                    cases in1
                    rw [j1] at e1
                    rw [j2] at e2
                    cases b with
                    | true => cases e1; cases e2; exact k7
                    | false =>
                      cases n with
                      | zero => cases e1
                      | succ n =>
                        simp only [bind, Except.bind, Bool.false_eq_true, if_false] at e1
                        cases c3 : CppRounded.crossOnce C h L cm bcC sc1 s1 with
                        | error x => rw [c3] at e1; cases e1
                        | ok r3 =>
                          rw [c3] at e1
                          obtain ⟨s2, brk, sc2⟩ := r3
                          have h2 := cross_count c3
                          simp only at e1
                          cases brk with
                          | true => cases e1; omega
                          | false =>
                            simp only [Bool.false_eq_true, if_false] at e1
                            have := track_count _ e1
                            omega

end RoundedFirst

open RoundedFirst in
/-- **C135 (times).** If a charged particle crosses at most one facet in a step, the recorded times are the same to the last bit too. -/
theorem C135_first_crossing {C : CArith K} {A : Arith K g} (hC : IsCRounding C) (hA : IsRounding A) (hS : SameMachine C A) {cm : CppMesh K}
    {M : Mesh K g} (ht : cm.Twin M) (h : g ≤ p) (hI : SameTest C A h cm M) {L : Layout K p} (hL : L.Right)
    {bcC bcP : Int → τ → BCall K g p ρ → Except Err (τ × Part K p ρ)} (hbc : ∀ v st c, SameOk (bcC v st c) (bcP v st c)) (n : Nat)
    (time dt qmdt : K) (E : Part K p ρ → Option (Vec K p)) {st st' st2 : τ × Vec K p} {sc sc' : Scratch K} {q q' q2 : Part K p ρ}
    {evs evs2 : List (Part K p ρ × K)}
    (e1 : CppRounded.move C h L cm bcC n time dt qmdt E (st, sc) q = .ok ((st', sc'), q', evs))
    (e2 : Rounded.moveCharged A h M .charged bcP n time dt qmdt false E st q = .ok (st2, q2, evs2)) (hcross : q'.crossings ≤ 1) :
    evs = evs2 := by
  unfold CppRounded.move at e1
  unfold Rounded.moveCharged at e2
  have hacc : CppRounded.accelerate C qmdt (E q) q = Rounded.accelerate A qmdt (E q) q := by
    unfold CppRounded.accelerate Rounded.accelerate
    cases E q with
    | none => rfl
    | some e => simp only [hS.mulAdd]
  have hmv : CppRounded.moveBy C dt (Rounded.accelerate A qmdt (E q) q) = Rounded.moveBy A dt (Rounded.accelerate A qmdt (E q) q) := by
    unfold CppRounded.moveBy Rounded.moveBy
    simp only [hS.mulAdd]
  have hstart : ∀ x : Part K p ρ, CppRounded.startTrk C time dt st.1 st.2 x = Rounded.startTrk A time dt st.1 st.2 x := by
    intro x
    unfold CppRounded.startTrk Rounded.startTrk
    rw [hS.fl]
  simp only [hacc, hmv, hstart] at e1
  simp only [Bool.false_eq_true, if_false] at e2
  cases t1 : CppRounded.track C h L cm bcC n sc (Rounded.startTrk A time dt st.1 st.2 (Rounded.moveBy A dt (Rounded.accelerate A qmdt (E q) q))) with
  | error x => rw [t1] at e1; cases e1
  | ok r1 =>
    cases t2 : Rounded.track A h M .charged bcP n (Rounded.startTrk A time dt st.1 st.2 (Rounded.moveBy A dt (Rounded.accelerate A qmdt (E q) q))) with
    | error x => rw [t2] at e2; cases e2
    | ok r2 =>
      rw [t1] at e1
      rw [t2] at e2
      obtain ⟨s', sc1⟩ := r1
      cases e1
      cases e2
      exact track_first hC hA hS ht h hI hL hbc n t1 t2 (by simpa [Rounded.startTrk] using hcross)

/-- The step of Props/CppRounded.lean with one crossing. -/
example : ∃ evs, (cppStep coarseC).toOption.map (fun r => r.2.2) = some evs ∧ evs.length = 1 ∧
    (Rounded.moveCharged coarse (le_refl 1) demoLine .charged demoBC 10 5 1 1 false (fun _ => some ![-1]) ((), ![0])
      (demoPart (1/2) (-1/4) 0 true)).toOption.map (fun r => r.2.2) = some evs := by
  have hv : (cppStep coarseC).toOption.map (fun r => (r.2.1.crossings, r.2.2.length)) = some (1, 1) := by decide +kernel
  have hw : ((Rounded.moveCharged coarse (le_refl 1) demoLine .charged demoBC 10 5 1 1 false (fun _ => some ![-1]) ((), ![0])
      (demoPart (1/2) (-1/4) 0 true)).toOption.map (fun r => r.2.2.length)) = some 1 := by decide +kernel
  cases e1 : cppStep coarseC with
  | error x => rw [e1] at hv; cases hv
  | ok r =>
    obtain ⟨⟨a, b⟩, q', evs⟩ := r
    rw [e1] at hv
    simp only [Except.toOption, Option.map_some, Option.some.injEq, Prod.mk.injEq] at hv
    cases e2 : Rounded.moveCharged coarse (le_refl 1) demoLine .charged demoBC 10 5 1 1 false (fun _ => some ![-1]) ((), ![0])
      (demoPart (1/2) (-1/4) 0 true) with
    | error x => rw [e2] at hw; cases hw
    | ok r2 =>
      refine ⟨evs, rfl, hv.2, ?_⟩
      have := C135_first_crossing coarseC_rounding coarse_rounding coarse_same demoLineCpp_twin (le_refl 1) (coarse_test demoLineCpp_twin)
        C66_layouts.1 (fun _ _ _ _ => Iff.rfl) 10 5 1 1 _ e1 e2 (by rw [hv.1])
      simp only [Except.toOption, Option.map_some, this]

end Dt
