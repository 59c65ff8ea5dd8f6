import Verif.Props.Track
import Verif.Model.CppMover

/-!
# Properties of boundary callbacks: C28 (limits), C31, C32, C40
-/

set_option linter.unusedSectionVars false

namespace Dt
variable {K : Type} [Field K] [LinearOrder K] [IsStrictOrderedRing K] {g p : Nat} {τ ρ : Type}

/-! ## C28: what the hypotheses on the callbacks exclude -/

/-- The line with a marked facet in the interior. -/
def demoLine' : Mesh ℚ 1 := lineMesh (fun i => (i : ℚ)) 3 (fun F => if F = 0 ∨ F = 1 then 1 else if F = 3 then 2 else 0)

theorem demoLine'_conforming : demoLine'.Conforming :=
  lineMesh_conforming (fun i _ => by push_cast; linarith) (by decide) (by decide)

/-- C28 is false for a reflecting callback on an interior facet: the particle is relabelled
with the cell behind the facet, and the next search finds the same facet. -/
theorem C28_false_interior_reflection :
    ∃ (M : Mesh ℚ 1) (q : Part ℚ 1 Nat), M.Conforming ∧ InItsCell (le_refl 1) M q ∧
      (moveCharged (le_refl 1) M .charged demoBC 10 1 1 1 false (fun _ => none) ((), ![0]) q).map
        (fun _ => ()) = .error .sameFacet :=
  ⟨demoLine', demoPart (1/2) 1 0 false, demoLine'_conforming, by unfold InItsCell; decide +kernel,
    by decide +kernel⟩

/-- C28 is false for a boundary callback that does nothing, like `default_bc_at_xmax` of
UserParticles_1D. -/
theorem C28_false_passive_boundary :
    ∃ (M : Mesh ℚ 1) (q : Part ℚ 1 Nat), M.Conforming ∧ InItsCell (le_refl 1) M q ∧
      (moveCharged (le_refl 1) M .charged (fun _ (st : Unit) b => bcNothing st b) 10 1 1 1 false
        (fun _ => none) ((), ![0]) q).map (fun _ => ()) = .error .sameFacet :=
  ⟨demoLine, demoPart (5/2) 1 2 false, demoLine_conforming, by unfold InItsCell; decide +kernel,
    by decide +kernel⟩

/-! ## C31 -/

theorem crossOnce_fresh {h : g ≤ p} {M : Mesh K g} {v : Variant} (hv : v.sharesDx = true)
    {bc bc' : Int → τ → BCall K g p ρ → Except Err (τ × Part K p ρ)}
    (hbc : ∀ value st b, b.part.x - b.part.x0 = (1 - b.frac) • b.dx →
      bc value st b = bc' value st b) (s : Trk K p τ ρ) :
    crossOnce h M v bc s = crossOnce h M v bc' s := by
  unfold crossOnce
  dsimp only
  cases hf : M.findFacet (proj h s.part.x0) (proj h (s.part.x - s.part.x0)) s.cell with
  | error e' => rfl
  | ok r =>
    obtain ⟨cFacet, f, n⟩ := r
    simp only [bind, Except.bind]
    split
    · rfl
    · cases hl : M.lookup s.cell with
      | error e' => rfl
      | ok c =>
        simp only
        cases hm : pyGet c.facets cFacet with
        | error e' => rfl
        | ok mFacet =>
          simp only
          split
          · rfl
          · split
            · unfold atMarked
              dsimp only
              rw [hbc]
              simp only [if_pos hv]
              exact rest_of_move
            · rfl

theorem track_fresh {h : g ≤ p} {M : Mesh K g} {v : Variant} (hv : v.sharesDx = true)
    {bc bc' : Int → τ → BCall K g p ρ → Except Err (τ × Part K p ρ)}
    (hbc : ∀ value st b, b.part.x - b.part.x0 = (1 - b.frac) • b.dx →
      bc value st b = bc' value st b) (n : Nat) (s : Trk K p τ ρ) :
    track h M v bc n s = track h M v bc' n s := by
  induction n generalizing s with
  | zero => unfold track; rfl
  | succ n ih =>
    unfold track
    rw [crossOnce_fresh hv hbc]
    congr 1
    funext b
    split
    · rfl
    · simp only
      congr 1
      funext r
      rw [ih]

/-- C31, movers of charged species.  A callback is only ever called with the current move
vector in `self.dx`, the one whose part `1 - dx_fraction` is left: callbacks that agree on
such calls cannot be told apart. -/
theorem C31_current_dx {h : g ≤ p} {M : Mesh K g} {v : Variant} (hv : v.sharesDx = true)
    {bc bc' : Int → τ → BCall K g p ρ → Except Err (τ × Part K p ρ)}
    (hbc : ∀ value st b, b.part.x - b.part.x0 = (1 - b.frac) • b.dx →
      bc value st b = bc' value st b) (n : Nat) (time dt qmdt : K) (accel : Bool)
    (E : Part K p ρ → Option (Vec K p)) (st : τ × Vec K p) (q : Part K p ρ) :
    moveCharged h M v bc n time dt qmdt accel E st q =
      moveCharged h M v bc' n time dt qmdt accel E st q := by
  unfold moveCharged
  dsimp only
  rw [track_fresh hv hbc]

/-- The movers of charged species do keep `self.dx` current. -/
example : Variant.charged.sharesDx = true ∧ Variant.oldCharged.sharesDx = true := ⟨rfl, rfl⟩

/-- C31 is false for `advance_neutral_species`: it computes the move vector in a new array,
`self.dx` keeps old contents, and a reflecting callback does not turn the particle
back; the step then ends with an error, although the mesh, the particle and the
callback satisfy the hypotheses of C28. -/
theorem C31_false_neutral :
    ∃ (M : Mesh ℚ 1) (q : Part ℚ 1 Nat), M.Conforming ∧ InItsCell (le_refl 1) M q ∧
      GoodBC (le_refl 1) M True demoBC ∧
      (∃ r, moveCharged (le_refl 1) M .charged demoBC 10 1 1 1 false (fun _ => none) ((), ![0]) q
        = .ok r) ∧
      (moveNeutral (le_refl 1) M .neutral demoBC 10 1 1 ((), ![0]) q).map (fun _ => ()) =
        .error .name := by
  refine ⟨demoLine, demoPart (1/2) (-1) 0 false, demoLine_conforming,
    by unfold InItsCell; decide +kernel, ?_, ?_, by decide +kernel⟩
  · have := demoBC_good
    simpa [Variant.charged] using this
  · rcases C28_no_error demoLine_conforming (v := .charged) rfl demoBC_good 10 1 1 1 false
      (fun _ => none) ((), ![0]) (q := demoPart (1/2) (-1) 0 false)
      (by unfold InItsCell; decide +kernel) with h | ⟨h, -⟩
    · exact h
    · have h2 : (moveCharged (le_refl 1) demoLine .charged demoBC 10 1 1 1 false (fun _ => none)
          ((), ![0]) (demoPart (1/2) (-1) 0 false)).map (fun _ => ()) = .ok () := by decide +kernel
      rw [h] at h2
      cases h2

/-- C31, neutral species: what the callback gets instead is the vector that `self.dx` held
before the step, at every crossing. -/
theorem C31_neutral_stale {h : g ≤ p} {M : Mesh K g} {v : Variant} (hv : v.sharesDx = false)
    {bc bc' : Int → τ → BCall K g p ρ → Except Err (τ × Part K p ρ)} (d : Vec K p)
    (hbc : ∀ value st b, b.dx = d → bc value st b = bc' value st b) (n : Nat) (time dt : K)
    (st : τ) (q : Part K p ρ) :
    moveNeutral h M v bc n time dt (st, d) q = moveNeutral h M v bc' n time dt (st, d) q := by
  have one : ∀ s : Trk K p τ ρ, s.dxS = d → crossOnce h M v bc s = crossOnce h M v bc' s := by
    intro s hs
    unfold crossOnce
    dsimp only
    cases hf : M.findFacet (proj h s.part.x0) (proj h (s.part.x - s.part.x0)) s.cell with
    | error e' => rfl
    | ok r =>
      obtain ⟨cFacet, f, n⟩ := r
      simp only [bind, Except.bind]
      split
      · rfl
      · cases hl : M.lookup s.cell with
        | error e' => rfl
        | ok c =>
          simp only
          cases hm : pyGet c.facets cFacet with
          | error e' => rfl
          | ok mFacet =>
            simp only
            split
            · rfl
            · split
              · unfold atMarked
                dsimp only
                rw [hbc]
                simp only [hv, Bool.false_eq_true, if_false]
                exact hs
              · rfl
  have all : ∀ (n : Nat) (s : Trk K p τ ρ), s.dxS = d →
      track h M v bc n s = track h M v bc' n s := by
    intro n
    induction n with
    | zero => intro s _; unfold track; rfl
    | succ n ih =>
      intro s hs
      unfold track
      rw [one s hs]
      congr 1
      funext b
      split
      · rfl
      · simp only
        cases hc : crossOnce h M v bc' s with
        | error e' => rfl
        | ok r =>
          obtain ⟨s1, brk⟩ := r
          simp only [bind, Except.bind]
          have hd : s1.dxS = d := by
            obtain ⟨_, _, _, _, _, _, _, _, _, _, _, _, _, _, _, _, _, _, _, _, _, _, _, hd, _⟩ :=
              (crossOnce_ok hc).ex
            rw [hd, hv]
            simpa using hs
          rw [ih s1 hd]
  unfold moveNeutral
  rw [all n _ rfl]

/-! ## C32 -/

/-- C32.  The C++ movers of charged species and the three-dimensional mover of neutral
species give the stored start point to the facet search, whatever the scratch array
held before. -/
theorem C32_start_point (s : Scratch K) :
    (∀ x x0 : Vec K 1, (fillX s x x0).from 1 1 = x0) ∧
    (∀ x x0 : Vec K 2, (fillXY s x x0).from 2 2 = x0) ∧
    (∀ x x0 : Vec K 3, (fillXYZ s x x0).from 3 3 = x0) := by
  refine ⟨?_, ?_, ?_⟩
  · intro x x0
    funext i
    match i with
    | 0 => simp [fillX, Scratch.from, Scratch.put]
  · intro x x0
    funext i
    match i with
    | 0 => simp [fillXY, Scratch.from, Scratch.put]
    | 1 => simp [fillXY, Scratch.from, Scratch.put]
  · intro x x0
    funext i
    match i with
    | 0 => simp [fillXYZ, Scratch.from, Scratch.put]
    | 1 => simp [fillXYZ, Scratch.from, Scratch.put]
    | 2 => simp [fillXYZ, Scratch.from, Scratch.put]

/-- C32 is false for the two-dimensional C++ mover of neutral species: the search is given
(whatever element 2 held, x0) instead of (x0, y0), although the move vector is right. -/
theorem C32_false_neutral_xy (s : Scratch K) (x x0 : Vec K 2) :
    (fillNeutralXY s x x0).from 2 2 = ![s 2, x0 0] ∧ dxNeutralXY s x x0 = x - x0 ∧
    ∃ (s' : Scratch ℚ) (y y0 : Vec ℚ 2), (fillNeutralXY s' y y0).from 2 2 ≠ y0 := by
  refine ⟨?_, ?_, ?_⟩
  · funext i
    match i with
    | 0 => simp [fillNeutralXY, Scratch.from, Scratch.put]
    | 1 => simp [fillNeutralXY, Scratch.from, Scratch.put]
  · funext i
    match i with
    | 0 => simp [dxNeutralXY, fillNeutralXY, Scratch.put]
    | 1 => simp [dxNeutralXY, fillNeutralXY, Scratch.put]
  · refine ⟨fun _ => 0, ![1, 1], ![1, 1], ?_⟩
    intro h
    have := congrFun h 0
    simp [fillNeutralXY, Scratch.from, Scratch.put] at this

/-! ## C40 -/

section
variable {F : Type}

/-- Specification: the tag `t` belongs to boundary `b` if `b` is the last name with that
tag. -/
inductive TagOf : List (String × Int) → Int → String → Prop
  | here {l : List (String × Int)} {b : String} {t : Int} (h : ∀ e ∈ l, e.2 ≠ t) : TagOf ((b, t) :: l) t b
  | there {l : List (String × Int)} {b : String} {t : Int} (e : String × Int) (h : TagOf l t b) :
      TagOf (e :: l) t b

theorem invName_append (l1 l2 : List (String × Int)) (t : Int) :
    invName (l1 ++ l2) t = (invName l2 t).or (invName l1 t) := by
  unfold invName
  rw [List.reverse_append, List.find?_append]
  cases List.find? (fun e => e.2 == t) l2.reverse <;> rfl

theorem invName_none {l : List (String × Int)} {t : Int} (h : ∀ e ∈ l, e.2 ≠ t) :
    invName l t = none := by
  unfold invName
  rw [List.find?_eq_none.2]
  · rfl
  · intro e he
    simp [h e (List.mem_reverse.1 he)]

theorem invName_of {l : List (String × Int)} {t : Int} {b : String} (h : TagOf l t b) :
    invName l t = some b := by
  induction h with
  | @here l b t h =>
    rw [show ((b, t) :: l) = [(b, t)] ++ l from rfl, invName_append, invName_none h]
    simp [invName]
  | @there l b t e h ih =>
    rw [show (e :: l) = [e] ++ l from rfl, invName_append, ih]
    rfl

/-- C40.  The callback used for a boundary and a species is the one named for both if it is
defined, else the default of the boundary, else the global default. -/
theorem C40_most_specific {A R : Type} (cb : Callbacks (A → Except Err R)) {dict : List (String × Int)}
    {species : List String} {t : Int} {b sp : String} (ht : TagOf dict t b) (hs : sp ∈ species)
    (a : A) (f : A → Except Err R) :
    (cb ("bc_at_" ++ b ++ "_for_" ++ sp) = some f → callBC cb dict species t sp a = f a) ∧
    (cb ("bc_at_" ++ b ++ "_for_" ++ sp) = none → cb ("default_bc_at_" ++ b) = some f →
      callBC cb dict species t sp a = f a) ∧
    (cb ("bc_at_" ++ b ++ "_for_" ++ sp) = none → cb ("default_bc_at_" ++ b) = none →
      cb "default_bc" = some f → callBC cb dict species t sp a = f a) := by
  refine ⟨?_, ?_, ?_⟩
  · intro h1
    simp [callBC, bcDict, invName_of ht, hs, chooseBC, h1]
  · intro h1 h2
    simp [callBC, bcDict, invName_of ht, hs, chooseBC, h1, h2]
  · intro h1 h2 h3
    simp [callBC, bcDict, invName_of ht, hs, chooseBC, h1, h2, h3]

/-- C40.  The choice for a boundary and a species depends on three names only. -/
theorem C40_independent {A R : Type} (cb cb' : Callbacks (A → Except Err R))
    {dict : List (String × Int)} (species : List String) {t : Int} {b sp : String}
    (ht : TagOf dict t b)
    (h1 : cb ("bc_at_" ++ b ++ "_for_" ++ sp) = cb' ("bc_at_" ++ b ++ "_for_" ++ sp))
    (h2 : cb ("default_bc_at_" ++ b) = cb' ("default_bc_at_" ++ b))
    (h3 : cb "default_bc" = cb' "default_bc") (a : A) :
    callBC cb dict species t sp a = callBC cb' dict species t sp a := by
  simp only [callBC, bcDict, invName_of ht, chooseBC, h1, h2, h3]

/-- C40.  Python and C++ choose alike if C++ gets through its constructor and sees the
boundary names in an order in which the same name is last for every tag (it always is if
the tags are distinct). -/
theorem C40_cpp_agrees (cb : Callbacks F) {dict sorted : List (String × Int)}
    {species : List String} (hd : ∀ t, invName sorted t = invName dict t)
    {tab : Int → String → Option F} (e : cppBcDict cb sorted species = .ok tab) (t : Int) (sp : String) :
    bcDict cb dict species t sp = (if (invName dict t).isSome ∧ sp ∈ species then some (tab t sp) else none) ∧
    ((invName dict t).isSome → sp ∈ species → (tab t sp).isSome) ∧
    (¬ ((invName dict t).isSome ∧ sp ∈ species) → tab t sp = none) := by
  unfold cppBcDict at e
  split at e
  · rename_i hall
    cases e
    refine ⟨?_, ?_, fun hn => ?_⟩
    · unfold bcDict
      dsimp only
      rw [hd]
      cases invName dict t with
      | none => simp
      | some b => by_cases hs : sp ∈ species <;> simp [hs]
    rotate_left
    · dsimp only
      rw [hd]
      cases hb : invName dict t with
      | none => rfl
      | some b =>
        by_cases hs : sp ∈ species
        · exact absurd ⟨by rw [hb]; rfl, hs⟩ hn
        · simp [hs]
    · intro h1 h2
      dsimp only
      rw [hd]
      obtain ⟨b, hb⟩ := Option.isSome_iff_exists.1 h1
      rw [hb]
      simp only [h2, if_true]
      rw [List.all_eq_true] at hall
      have hmem : ∃ e ∈ sorted, e.2 = t := by
        rw [← hd] at hb
        unfold invName at hb
        rw [Option.map_eq_some_iff] at hb
        obtain ⟨e, he, -⟩ := hb
        exact ⟨e, List.mem_reverse.1 (List.mem_of_find?_eq_some he),
          by simpa using List.find?_some he⟩
      obtain ⟨e, he, rfl⟩ := hmem
      have := hall e he
      rw [List.all_eq_true] at this
      have := this sp h2
      rw [hd, hb] at this
      exact this
  · cases e

/-- C40.  Without any callback C++ refuses to construct the object; Python stores None, and
the failure (TypeError) comes when a particle crosses the boundary. -/
theorem C40_false_missing {A R : Type} (cb : Callbacks (A → Except Err R)) {dict : List (String × Int)}
    {species : List String} {t : Int} {b sp : String} (ht : TagOf dict t b) (hs : sp ∈ species)
    (h1 : cb ("bc_at_" ++ b ++ "_for_" ++ sp) = none) (h2 : cb ("default_bc_at_" ++ b) = none)
    (h3 : cb "default_bc" = none) (a : A) :
    bcDict cb dict species t sp = some none ∧ callBC cb dict species t sp a = .error .type ∧
    cppBcDict cb dict species = .error .exit := by
  have hc : bcDict cb dict species t sp = some none := by
    simp [bcDict, invName_of ht, hs, chooseBC, h1, h2, h3]
  refine ⟨hc, by simp [callBC, hc], ?_⟩
  unfold cppBcDict
  rw [if_neg]
  intro hall
  rw [List.all_eq_true] at hall
  have hmem : (b, t) ∈ dict := by
    have aux : ∀ {l : List (String × Int)} {t : Int} {b : String}, TagOf l t b → (b, t) ∈ l := by
      intro l t b h
      induction h with
      | here h => exact List.mem_cons_self
      | there e h ih => exact List.mem_cons_of_mem _ ih
    exact aux ht
  have := hall _ hmem
  rw [List.all_eq_true] at this
  have := this sp hs
  simp [invName_of ht, chooseBC, h1, h2, h3] at this

/-- Non-vacuity of C40: three boundaries, two species, callbacks of all three kinds. -/
def demoCB : Callbacks (Nat → Except Err Nat) := fun s =>
  if s = "default_bc" then some (fun n => .ok n)
  else if s = "default_bc_at_rmin" then some (fun n => .ok (n + 1))
  else if s = "bc_at_rmin_for_He" then some (fun n => .ok (n + 2)) else none

example : [(1, "H"), (1, "He"), (2, "He"), (3, "H")].map
    (fun a => callBC demoCB [("rmin", 1), ("rmax", 2)] ["H", "He"] a.1 a.2 10) =
    [.ok 11, .ok 12, .ok 10, .error .key] := by decide

example : TagOf [("rmin", 1), ("rmax", 2)] 1 "rmin" := .here (by decide)

end
end Dt
