import Verif.Props.Track
import Verif.Lemmas.LineCross

/-!
# How many facets a particle can cross (C26)

With absorbing boundaries the path of a particle within a step is straight.
-/

set_option linter.unusedSectionVars false

namespace Dt
variable {K : Type} [Field K] [LinearOrder K] [IsStrictOrderedRing K] {g p : Nat} {τ ρ : Type}

/-- The record of a particle of a charged species when the tracking starts. -/
def movedPart (dt qmdt : K) (E : Part K p ρ → Option (Vec K p)) (q : Part K p ρ) : Part K p ρ :=
  moveBy dt (accelerate qmdt (E q) q)

theorem moved_sound {h : g ≤ p} {M : Mesh K g} (hM : M.Conforming) (time dt qmdt : K)
    (E : Part K p ρ → Option (Vec K p)) (st : τ) (dxS : Vec K p) {q : Part K p ρ}
    (hq : InItsCell h M q) : Sound h M (startTrk time dt st dxS (movedPart dt qmdt E q)) := by
  obtain ⟨c, hc, hx⟩ := hq.get hM
  have hcell : (accelerate qmdt (E q) q).cell = q.cell := by unfold accelerate; split <;> rfl
  have hxx : (accelerate qmdt (E q) q).x = q.x := by unfold accelerate; split <;> rfl
  refine start_sound hM (c := c) ?_ ?_
  · simp only [movedPart, moveBy, hcell]; exact hc
  · simp only [movedPart, moveBy, hxx]; exact hx

/-- C26.  On a conforming mesh in which particles are deleted at the boundary, a particle that is in
its cell never comes back, within a step, to a cell that it has left, as long as it does not pass
through a point where facets meet (no two successive crossing points coincide).  So it crosses fewer
facets than the mesh has cells. -/
theorem C26_each_cell_once {h : g ≤ p} {M : Mesh K g} (hM : M.Conforming) {v : Variant}
    (hv : v.datum = .ok ()) {bc : Int → τ → BCall K g p ρ → Except Err (τ × Part K p ρ)}
    (hbc : GoodBC h M (v.sharesDx = true) bc) (ha : Absorbs M bc) (time dt qmdt : K)
    (E : Part K p ρ → Option (Vec K p)) (st : τ × Vec K p) {q : Part K p ρ} (hq : InItsCell h M q)
    {L : List (Int × Vec K p)} {s' : Trk K p τ ρ}
    (hp : CrossPath h M v bc L (startTrk time dt st.1 st.2 (movedPart dt qmdt E q)) s')
    (hL : (L.map Prod.snd).IsChain (· ≠ ·)) :
    (L.map Prod.fst ++ [s'.cell]).Nodup ∧
    ∀ cells : List Int, (∀ ci, M.cell ci ≠ none → ci ∈ cells) → L.length < cells.length := by
  have hs := moved_sound hM time dt qmdt E st.1 st.2 hq
  have h1 := path_nodup hM hv hbc ha hp hs hL
  refine ⟨h1, fun cells hcells => ?_⟩
  have h2 := path_cells hM hv hbc hp hs
  have : (L.map Prod.fst ++ [s'.cell]).length ≤ cells.length :=
    (List.subperm_of_subset h1 (fun ci hci => hcells ci (h2 ci hci))).length_le
  simp at this
  omega

/-- C26.  On such a mesh with no more cells than the crossing limit, the limit is exceeded only by a
particle that passes through a point where facets meet. -/
theorem C26_limit_only_degenerate {h : g ≤ p} {M : Mesh K g} (hM : M.Conforming) {v : Variant}
    (hv : v.datum = .ok ()) {bc : Int → τ → BCall K g p ρ → Except Err (τ × Part K p ρ)}
    (hbc : GoodBC h M (v.sharesDx = true) bc) (ha : Absorbs M bc) {n : Nat} {time dt qmdt : K}
    {E : Part K p ρ → Option (Vec K p)} {st : τ × Vec K p} {q : Part K p ρ} (hq : InItsCell h M q)
    {cells : List Int} (hcells : ∀ ci, M.cell ci ≠ none → ci ∈ cells) (hn : cells.length ≤ n) {e : Err}
    (he : moveCharged h M v bc n time dt qmdt false E st q = .error e) :
    e = v.err .tooMany ∧ ∃ L s', L.length = n ∧
      CrossPath h M v bc L (startTrk time dt st.1 st.2 (movedPart dt qmdt E q)) s' ∧
      ¬ (L.map Prod.snd).IsChain (· ≠ ·) := by
  rcases C28_no_error hM hv hbc n time dt qmdt false E st hq with ⟨r, hr⟩ | ⟨hr, s', hc, -⟩
  · rw [hr] at he; cases he
  · rw [hr] at he
    cases he
    simp only [Bool.false_eq_true, if_false] at hc
    obtain ⟨L, hl, hp⟩ := path_of_crossN hc
    refine ⟨rfl, L, s', hl, hp, fun hch => ?_⟩
    have := (C26_each_cell_once hM hv hbc ha time dt qmdt E st hq hp hch).2 cells hcells
    omega

/-- C26.  On a one-dimensional mesh of at most as many cells as the limit, whose ends delete
particles, the limit is never exceeded: a particle that is in its cell is always moved without an
error. -/
theorem C26_line_no_error {x : Nat → K} {N : Nat} {marker : Int → Int} {h : 1 ≤ p} {v : Variant}
    (hM : (lineMesh x N marker).Conforming) (hv : v.datum = .ok ())
    {bc : Int → τ → BCall K 1 p ρ → Except Err (τ × Part K p ρ)}
    (hbc : GoodBC h (lineMesh x N marker) (v.sharesDx = true) bc) (ha : Absorbs (lineMesh x N marker) bc)
    {n : Nat} (hn : N ≤ n) (time dt qmdt : K) (E : Part K p ρ → Option (Vec K p)) (st : τ × Vec K p)
    {q : Part K p ρ} (hq : InItsCell h (lineMesh x N marker) q) :
    ∃ r, moveCharged h (lineMesh x N marker) v bc n time dt qmdt false E st q = .ok r := by
  rcases C28_no_error hM hv hbc n time dt qmdt false E st hq with hr | ⟨hr, s', hc, -⟩
  · exact hr
  · exfalso
    simp only [Bool.false_eq_true, if_false] at hc
    have hs := moved_sound hM time dt qmdt E st.1 st.2 hq
    obtain ⟨c, hcell, -, -⟩ := hs.ex
    obtain ⟨i, hi, hiN, rfl⟩ := lineMesh_cell hcell
    obtain ⟨h1, h2, h3, -⟩ := line_crossN hM hv hbc ha hc hi hs
    change (0 < ahead h (startTrk time dt st.1 st.2 (movedPart dt qmdt E q)) → _) at h1
    rcases lt_trichotomy (ahead h (startTrk time dt st.1 st.2 (movedPart dt qmdt E q))) 0 with h0 | h0 | h0
    · have := h2 h0; omega
    · have := h3 h0; omega
    · have := h1 h0; omega

/-! ### The hypotheses are met -/

/-- Delete at every marked facet. -/
def sinkBC : Int → Unit → BCall ℚ 1 1 Nat → Except Err (Unit × Part ℚ 1 Nat) := fun _ st b => bcAbsorb st b

theorem sinkBC_good : GoodBC (le_refl 1) demoLine (Variant.charged.sharesDx = true) sinkBC := by
  refine ⟨fun st call n _ _ => ⟨_, rfl⟩, ?_, ?_, ?_⟩
  · intro st call st' q' e
    simp only [sinkBC, bcAbsorb, Except.ok.injEq, Prod.mk.injEq] at e
    rw [← e.2]
  · intro st call st' q' e _
    simp only [sinkBC, bcAbsorb, Except.ok.injEq, Prod.mk.injEq] at e
    rw [← e.2]
  · intro st call st' q' n e _ _ _ _
    simp only [sinkBC, bcAbsorb, Except.ok.injEq, Prod.mk.injEq] at e
    left
    rw [← e.2]

theorem sinkBC_absorbs : Absorbs demoLine sinkBC := by
  intro st call st' q' n e _
  simp only [sinkBC, bcAbsorb, Except.ok.injEq, Prod.mk.injEq] at e
  rw [← e.2]

-- However fast the particle: three crossings suffice on three cells.
example (u : ℚ) : ∃ r, moveCharged (le_refl 1) demoLine .charged sinkBC 3 1 1 1 false (fun _ => some ![u])
    ((), ![0]) (demoPart (1/2) 0 0 false) = .ok r :=
  C26_line_no_error (x := fun i => (i : ℚ)) (N := 3) demoLine_conforming rfl sinkBC_good sinkBC_absorbs
    (le_refl 3) _ _ _ _ _ (by show InItsCell _ demoLine _; unfold InItsCell; decide +kernel)

-- With two crossings allowed the limit is exceeded.
example : demoView (moveCharged (le_refl 1) demoLine .charged sinkBC 2 1 1 1 false (fun _ => some ![5])
    ((), ![0]) (demoPart (1/2) 0 0 false)) = .error .tooMany := by decide +kernel

-- The path of a particle through the three cells, as in `C26_each_cell_once`.
example : ∃ L s', L.map Prod.fst = [0, 1] ∧ CrossPath (le_refl 1) demoLine .charged sinkBC L
    (startTrk 1 1 () ![0] (movedPart 1 1 (fun _ => some ![2]) (demoPart (1/2) 0 0 false))) s' ∧
    (L.map Prod.snd).IsChain (· ≠ ·) ∧ s'.cell = 2 := by
  have hs := moved_sound (h := le_refl 1) demoLine_conforming 1 1 1 (fun _ => some ![2]) () ![0]
    (q := demoPart (1/2) 0 0 false) (by unfold InItsCell; decide +kernel)
  obtain ⟨s1, b1, e1, k1⟩ := cross_sound demoLine_conforming (v := .charged) rfl sinkBC_good hs
    (by decide +kernel)
  have hv1 : ((crossOnce (le_refl 1) demoLine .charged sinkBC (startTrk 1 1 () ![0]
      (movedPart 1 1 (fun _ => some ![2]) (demoPart (1/2) 0 0 false)))).toOption.map
        (fun r => (r.2, r.1.cell, r.1.part.x0 0, r.1.part.x 0))) = some (false, 1, 1, 5/2) := by decide +kernel
  rw [e1] at hv1
  simp only [Except.toOption, Option.map_some, Option.some.injEq, Prod.mk.injEq] at hv1
  obtain ⟨rfl, c1, x1, y1⟩ := hv1
  have hin : demoLine.isInside (proj (le_refl 1) s1.part.x) s1.cell = .ok false := by
    have hx : proj (le_refl 1) s1.part.x = ![5/2] := by
      funext i
      rw [Subsingleton.elim i 0]
      exact y1
    rw [hx, c1]
    decide +kernel
  obtain ⟨s2, b2, e2, k2⟩ := cross_sound demoLine_conforming (v := .charged) rfl sinkBC_good (k1 rfl) hin
  have hv2 : ((crossOnce (le_refl 1) demoLine .charged sinkBC (startTrk 1 1 () ![0]
      (movedPart 1 1 (fun _ => some ![2]) (demoPart (1/2) 0 0 false))) >>= fun r =>
        crossOnce (le_refl 1) demoLine .charged sinkBC r.1).toOption.map
        (fun r => (r.2, r.1.cell, r.1.part.x0 0))) = some (false, 2, 2) := by decide +kernel
  rw [e1] at hv2
  simp only [bind, Except.bind, e2, Except.toOption, Option.map_some, Option.some.injEq,
    Prod.mk.injEq] at hv2
  obtain ⟨rfl, c2, x2⟩ := hv2
  refine ⟨_, s2, ?_, .cons (by decide +kernel) e1 (.cons hin e2 (.nil s2)), ?_, c2⟩
  · simp [c1, startTrk, movedPart, moveBy, accelerate, demoPart]
  · simp only [List.map_cons, List.map_nil, List.isChain_cons_cons, List.isChain_singleton, and_true]
    intro h0
    have := congrFun h0 0
    rw [x1, x2] at this
    norm_num at this

end Dt
