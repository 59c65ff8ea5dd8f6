import Verif.Lemmas.RectBound
import Verif.Props.RectMesh

/-!
# The limit on crossings in a rectangle (C86)
-/

set_option linter.unusedSectionVars false

namespace Dt
open Mark Spec.Mark Rect
variable {K : Type} [Field K] [LinearOrder K] [IsStrictOrderedRing K] {τ ρ : Type}

section
variable {x y : Nat → K} {d : Nat → Nat → Bool} {nx ny : Nat} {marker : Int → Int} {m : Side → Bool}
  {bc : Int → τ → BCall K 2 2 ρ → Except Err (τ × Part K 2 ρ)}

theorem start_budget (hnx : 1 ≤ nx) (hny : 1 ≤ ny) (hM : (mesh x y d nx ny marker).Conforming) {v : Variant}
    (hv : v.sharesDx = true ∨ ∀ w, m w = false) (hd : v.datum = .ok ())
    (hw : Walled (mesh x y d nx ny marker) (walls (x 0) (x nx) (y 0) (y ny) m) (sideOf nx))
    (hb : BilliardBC (mesh x y d nx ny marker) (walls (x 0) (x nx) (y 0) (y ny) m) (sideOf nx) bc)
    {s : Trk K 2 τ ρ} (hs : Sound (le_refl 2) (mesh x y d nx ny marker) s) (hdel : s.part.del = false) {r r' n : Nat}
    (hx : Within (m .left) (m .right) (x 0) (x nx) r (s.part.x 0))
    (hy : Within (m .bottom) (m .top) (y 0) (y ny) r' (s.part.x 1))
    (hn : 2 * ((r + 1) * nx + (r' + 1) * ny) ≤ n + 2) :
    ∃ s', track (le_refl 2) (mesh x y d nx ny marker) v bc n s = .ok s' := by
  obtain ⟨c, hcell, -⟩ := hs.ex
  obtain ⟨i, j, t, hi, hj, hci, -⟩ := cell_inv hcell
  rw [Nat.add_mul, Nat.add_mul, Nat.one_mul, Nat.one_mul] at hn
  refine track_budget hnx hny hM hv hd hw hb n (i := i) (j := j) (t := t) (r := r) (r' := r')
    (V := nx - 1 + r * nx) (H := ny - 1 + r' * ny) (D := 1) hs hdel hi hj hci
    ⟨hx, hy, fun _ => ?_, fun _ => ?_, fun _ => ?_, fun _ => ?_, fun _ => le_refl _, ?_⟩ <;> omega

/-- C86 (one particle).  On a rectangle of `nx` times `ny` boxes, whose sides reflect or delete: if the
coordinates are reflected at most `r` and `r'` times on the way, then a step of the charged mover crosses
at most `2 ((r + 1) nx + (r' + 1) ny) - 2` facets, so that it does not fail if the limit is not lower.
This includes particles that go through corners of the triangles or along their edges. -/
theorem C86_particle (hnx : 1 ≤ nx) (hny : 1 ≤ ny) (hM : (mesh x y d nx ny marker).Conforming) {v : Variant}
    (hv : v.sharesDx = true) (hd : v.datum = .ok ())
    (hw : Walled (mesh x y d nx ny marker) (walls (x 0) (x nx) (y 0) (y ny) m) (sideOf nx))
    (hb : BilliardBC (mesh x y d nx ny marker) (walls (x 0) (x nx) (y 0) (y ny) m) (sideOf nx) bc)
    (time dt qom : K) (E : Part K 2 ρ → Option (Vec K 2)) (st : τ × Vec K 2) {q : Part K 2 ρ}
    (hq : Present (le_refl 2) (mesh x y d nx ny marker) q) {r r' n : Nat}
    (hx : Within (m .left) (m .right) (x 0) (x nx) r ((leap dt qom (E q) (kin q)).1 0))
    (hy : Within (m .bottom) (m .top) (y 0) (y ny) r' ((leap dt qom (E q) (kin q)).1 1))
    (hn : 2 * ((r + 1) * nx + (r' + 1) * ny) ≤ n + 2) :
    ∃ a, moveCharged (le_refl 2) (mesh x y d nx ny marker) v bc n time dt (qom * dt) false E st q = .ok a := by
  rw [← kin_moved] at hx hy
  have hdel : (movedPart dt (qom * dt) E q).del = false := by
    unfold movedPart moveBy accelerate
    cases E q <;> exact hq.2
  obtain ⟨s, hs⟩ := start_budget hnx hny hM (.inl hv) hd hw hb
    (s := startTrk time dt st.1 st.2 (movedPart dt (qom * dt) E q))
    (moved_sound hM time dt _ E _ _ hq.1) hdel hx hy hn
  unfold moveCharged
  simp only [Bool.false_eq_true, if_false]
  unfold movedPart at hs
  rw [hs]
  exact ⟨_, rfl⟩

/-- C86 (neutral particles): the same if all sides delete. -/
theorem C86_neutral (hnx : 1 ≤ nx) (hny : 1 ≤ ny) (hM : (mesh x y d nx ny marker).Conforming) {v : Variant}
    (hm : ∀ sd, m sd = false) (hd : v.datum = .ok ())
    (hw : Walled (mesh x y d nx ny marker) (walls (x 0) (x nx) (y 0) (y ny) m) (sideOf nx))
    (hb : BilliardBC (mesh x y d nx ny marker) (walls (x 0) (x nx) (y 0) (y ny) m) (sideOf nx) bc)
    (time dt : K) (st : τ × Vec K 2) {q : Part K 2 ρ}
    (hq : Present (le_refl 2) (mesh x y d nx ny marker) q) {n : Nat} (hn : 2 * (nx + ny) ≤ n + 2) :
    ∃ a, moveNeutral (le_refl 2) (mesh x y d nx ny marker) v bc n time dt st q = .ok a := by
  obtain ⟨c, hc, hx⟩ := hq.1.get hM
  obtain ⟨s, hs⟩ := start_budget hnx hny hM (.inr hm) hd hw hb
    (s := startTrk time dt st.1 st.2 (moveBy dt q)) (start_sound hM (c := c) hc hx) hq.2 (r := 0) (r' := 0) (n := n)
    ⟨fun _ => hm _, fun _ => hm _⟩ ⟨fun _ => hm _, fun _ => hm _⟩ (by omega)
  unfold moveNeutral
  rw [hs]
  exact ⟨_, rfl⟩

end

/-- C86 (how often a coordinate is reflected).  Not at all between two holes; at most once between a mirror
and a hole; between two mirrors at most `r` times if the unreflected way ends less than `r + 1` widths
from the opposite wall. -/
theorem C86_reflections {lo hi : Bool} {a b z : K} (hab : a ≤ b) :
    (lo = false → hi = false → Within lo hi a b 0 z) ∧
    (lo = false ∨ hi = false → Within lo hi a b 1 z) ∧
    (∀ r : Nat, b - (r + 1) * (b - a) ≤ z → z ≤ a + (r + 1) * (b - a) → Within lo hi a b r z) := by
  refine ⟨fun h1 h2 => ⟨fun _ => h2, fun _ => h1⟩, ?_, ?_⟩
  · intro h
    refine ⟨fun h1 h2 => ⟨fun h3 => ?_, fun h3 => ?_⟩, fun h1 h2 => ⟨fun h3 => ?_, fun h3 => ?_⟩⟩
    · exfalso; linarith
    · rcases h with h | h
      · exact h
      · rw [h] at h2; cases h2
    · rcases h with h | h
      · rw [h] at h2; cases h2
      · exact h
    · exfalso; linarith
  · intro r
    induction r generalizing z with
    | zero =>
      intro h1 h2
      simp only [Nat.cast_zero, zero_add, one_mul] at h1 h2
      exact ⟨fun h => by exfalso; linarith, fun h => by exfalso; linarith⟩
    | succ r ih =>
      intro h1 h2
      push_cast at h1 h2
      have hr : (0 : K) ≤ r := Nat.cast_nonneg r
      have hw := mul_nonneg hr (sub_nonneg.2 hab)
      refine ⟨fun h _ => ih ?_ ?_, fun h _ => ih ?_ ?_⟩ <;> nlinarith

section
variable {xmin xmax ymin ymax : K} {nx ny : Nat}

/-- The number of passes of a coordinate between two walls, not both of which are mirrors. -/
def passes (lo hi : Bool) : Nat := if lo || hi then 2 else 1

theorem passes_within {lo hi : Bool} (h : lo = false ∨ hi = false) {a b : K} (hab : a ≤ b) (z : K) :
    ∃ r, passes lo hi = r + 1 ∧ Within lo hi a b r z := by
  unfold passes
  by_cases h1 : (lo || hi) = true
  · rw [if_pos h1]
    exact ⟨1, rfl, (C86_reflections hab).2.1 h⟩
  · rw [if_neg h1]
    simp only [Bool.or_eq_true, not_or, Bool.not_eq_true] at h1
    exact ⟨0, rfl, (C86_reflections hab).1 h1.1 h1.2⟩

/-- C86 (named sides).  A particle on a rectangle mesh made with named boundaries, none of them opposite to
another mirror if it is a mirror: whatever its speed, the field and the diagonals, a step of the charged
mover does not fail, if the limit is not lower than `2 (nx + ny) - 2`, with `nx` and `ny` doubled if there
are mirrors in that direction. -/
theorem C86_named_walls (hx : xmin < xmax) (hy : ymin < ymax) (hnx : 1 ≤ nx) (hny : 1 ≤ ny) {pd : Dict}
    (hg : GoodTags pd) (hsides : ∀ sd : Side, ∃ t, (sd.name, t) ∈ pd)
    (hw : (1 / 10 ^ 10 : K) ≤ xmax - xmin) (hdy : (1 / 10 ^ 10 : K) ≤ (ymax - ymin) / ny) {ms : Marks (RFacet K)}
    (e : createXY xmin xmax ymin ymax nx ny none (some pd) none = .ok ms)
    {cb : Callbacks (τ × BCall K 2 2 ρ → Except Err (τ × Part K 2 ρ))} {species : List String} {sn : String}
    (hs : sn ∈ species) {f : Side → τ × BCall K 2 2 ρ → Except Err (τ × Part K 2 ρ)} {m : Side → Bool}
    (hp : ∀ sd, Provided cb sd.name sn (f sd)) (ha : ∀ sd, ActsLike (m sd) (f sd))
    (mx : m .left = false ∨ m .right = false) (my : m .bottom = false ∨ m .top = false) {n : Nat}
    (hn : 2 * (passes (m .left) (m .right) * nx + passes (m .bottom) (m .top) * ny) ≤ n + 2) (d : Nat → Nat → Bool) :
    ∃ pm, ms.particle = some pm ∧ ∀ (time dt qom : K) (E : Part K 2 ρ → Option (Vec K 2))
      (st : τ × Vec K 2) (q : Part K 2 ρ), Present (le_refl 2) (boxMesh xmin xmax ymin ymax nx ny d pm) q →
      ∃ a, moveCharged (le_refl 2) (boxMesh xmin xmax ymin ymax nx ny d pm) .charged
        (namedBC cb pd species sn) n time dt (qom * dt) false E st q = .ok a := by
  obtain ⟨pm, hpm, hM, -, hwl, -, -, hb⟩ := C85_named_walls hx hy hnx hny hg hsides hw hdy e hs hp ha d
  refine ⟨pm, hpm, fun time dt qom E st q hq => ?_⟩
  obtain ⟨r, hr, hrx⟩ := passes_within mx hx.le ((leap dt qom (E q) (kin q)).1 0)
  obtain ⟨r', hr', hry⟩ := passes_within my hy.le ((leap dt qom (E q) (kin q)).1 1)
  refine C86_particle (m := m) (r := r) (r' := r') hnx hny hM rfl rfl ?_ ?_ time dt qom E st hq ?_ ?_ ?_
  · rw [gridPoint_zero, gridPoint_zero, gridPoint_last _ _ hnx, gridPoint_last _ _ hny]; exact hwl
  · rw [gridPoint_zero, gridPoint_zero, gridPoint_last _ _ hnx, gridPoint_last _ _ hny]; exact hb
  · rw [gridPoint_zero, gridPoint_last _ _ hnx]; exact hrx
  · rw [gridPoint_zero, gridPoint_last _ _ hny]; exact hry
  · rw [hr, hr'] at hn; exact hn

open TimeLoop in
open Spec (LState Stores Pop Ideal Fault lastOf) in
/-- C86 (a whole simulation).  A rectangle made with named boundaries, callbacks for all species as above
(they may differ from species to species), and sources and initial particles that are in order: whatever
the fields, charges, masses, the time step and the particles are, the run ends normally, or by the
assertion of a source that appends to a container (C70), unless a species loses all its particles in one
step (C14). -/
theorem C86_run {V φ : Type} (hx : xmin < xmax) (hy : ymin < ymax) (hnx : 1 ≤ nx) (hny : 1 ≤ ny) {pd : Dict}
    (hg : GoodTags pd) (hsides : ∀ sd : Rect.Side, ∃ t, (sd.name, t) ∈ pd)
    (hw : (1 / 10 ^ 10 : K) ≤ xmax - xmin) (hdy : (1 / 10 ^ 10 : K) ≤ (ymax - ymin) / ny) {ms : Marks (RFacet K)}
    (e : createXY xmin xmax ymin ymax nx ny none (some pd) none = .ok ms)
    {cb : Callbacks (τ × BCall K 2 2 ρ → Except Err (τ × Part K 2 ρ))} {species : List String}
    {f : String → Rect.Side → τ × BCall K 2 2 ρ → Except Err (τ × Part K 2 ρ)} {m : String → Rect.Side → Bool}
    (hp : ∀ sn ∈ species, ∀ sd : Rect.Side, Provided cb sd.name sn (f sn sd))
    (ha : ∀ sn ∈ species, ∀ sd, ActsLike (m sn sd) (f sn sd))
    (hcell : ∀ name f, cb name = some f → ∀ a st' q', f a = .ok (st', q') → q'.cell = a.2.part.cell)
    (mx : ∀ sn ∈ species, m sn .left = false ∨ m sn .right = false)
    (my : ∀ sn ∈ species, m sn .bottom = false ∨ m sn .top = false) {maxCross : Nat}
    (hn : ∀ sn ∈ species, 2 * (passes (m sn .left) (m sn .right) * nx + passes (m sn .bottom) (m sn .top) * ny) ≤
      maxCross + 2)
    (d : Nat → Nat → Bool) :
    ∃ pm, ms.particle = some pm ∧
      ∀ {qom : String → K} {E : String → φ → Part K 2 ρ → Option (Vec K 2)}
        {cfg : Cfg K V (Part K 2 ρ) (τ × Vec K 2) φ},
        cfg.move = pyMove (le_refl 2) (boxMesh xmin xmax ymin ymax nx ny d pm) (namedBC cb pd species) maxCross cfg.dt qom E →
        SourcesPresent (le_refl 2) (boxMesh xmin xmax ymin ymax nx ny d pm) cfg.sources →
        ∀ {onMesh : Part K 2 ρ → Bool},
        (∀ q, Present (le_refl 2) (boxMesh xmin xmax ymin ymax nx ny d pm) q → onMesh q = true) →
        ∀ {dd : Nat → Nat} {sl D C : Nat}, GoodCfg cfg → GoodMesh cfg onMesh dd D C →
        ∀ {z : Species.HRow K} (n : Nat) {init : Option (List (String × List (Part K 2 ρ)))},
        InitPresent (le_refl 2) (boxMesh xmin xmax ymin ymax nx ny d pm) init →
        ∀ {st : State K V (Part K 2 ρ) (τ × Vec K 2) φ} {i : Ideal K V (Part K 2 ρ) (τ × Vec K 2)} {b : List K},
        Fresh sl D C n z st i b → (∀ pop ∈ i.pops, pop.name ∈ species) → (st.writer = none → cfg.partEvery = none) →
        SourcesGood (i.pops.map (·.name)) cfg.sources →
        (∀ gs, init = some gs → ∀ a ∈ gs, a.1 ∈ i.pops.map (·.name)) →
        Ideal.run cfg sl D onMesh init b n i ≠ .error .allLost →
        (∃ st', run cfg init n st = .ok st') ∨ (cfg.sources ≠ [] ∧ run cfg init n st = .error .assertion) := by
  choose tag htag using hsides
  have hpos : ∀ sd, 0 < tag sd := fun sd => hg.pos _ (htag sd)
  obtain ⟨pm, hpm, -⟩ := rect_particle hx hy hnx hny hg.keys htag (fun sd => (hpos sd).le) hw hdy e
  refine ⟨pm, hpm, ?_⟩
  intro qom E cfg hmove hsrc onMesh hon dd sl D C hc hm z n init hinit st i b hf hsp hnone hsg hig hlost
  have hspec : ∀ sn ∈ i.pops.map (·.name), sn ∈ species := by
    intro sn hsn
    obtain ⟨pop, hpop, rfl⟩ := List.mem_map.1 hsn
    exact hsp pop hpop
  have key := C68_run hc hm n init hf hnone
  cases hr : Ideal.run cfg sl D onMesh init b n i with
  | ok r =>
    rw [hr] at key
    obtain ⟨_, st', e, _⟩ := key
    exact .inl ⟨st', e⟩
  | error flt =>
    rw [hr] at key
    have hM : (boxMesh xmin xmax ymin ymax nx ny d pm).Conforming := by
      obtain ⟨pm', hpm', hM, -⟩ := C85_named_walls (m := fun _ => false) (sn := "H") (species := ["H"])
        (cb := fun name => if name = "default_bc" then some (fun a : τ × BCall K 2 2 ρ => bcAbsorb a.1 a.2) else none)
        hx hy hnx hny hg (fun sd => ⟨tag sd, htag sd⟩) hw hdy e (by simp)
        (fun sd => .inr (.inr ⟨by cases sd <;> exact if_neg (by decide), by cases sd <;> exact if_neg (by decide), rfl⟩)) (fun _ st _ => ⟨st, rfl⟩) d
      rw [hpm] at hpm'; cases hpm'; exact hM
    have hbc : ∀ sn ∈ i.pops.map (·.name), GoodBC (le_refl 2) (boxMesh xmin xmax ymin ymax nx ny d pm) True
        (namedBC cb pd species sn) := by
      intro sn hsn
      obtain ⟨pm', hpm', -, -, hwl, -, -, hb⟩ := C85_named_walls hx hy hnx hny hg (fun sd => ⟨tag sd, htag sd⟩) hw hdy e
        (hspec sn hsn) (hp _ (hspec sn hsn)) (ha _ (hspec sn hsn)) d
      rw [hpm] at hpm'; cases hpm'
      exact hb.good hwl (.inl trivial)
    rcases run_faults hM hmove (fun sn => namedBC_keepsCell hcell pd species sn) hsrc hon n hinit hbc hf.empty hsg hig hr
      with rfl | ⟨rfl, hs⟩ | ⟨rfl, sn, fld, side, q, t, hsn, hq, he⟩
    · exact absurd hr hlost
    · exact .inr ⟨hs, key⟩
    · obtain ⟨pm', hpm', hok⟩ := C86_named_walls hx hy hnx hny hg (fun sd => ⟨tag sd, htag sd⟩) hw hdy e
        (hspec sn hsn) (hp _ (hspec sn hsn)) (ha _ (hspec sn hsn)) (mx _ (hspec sn hsn)) (my _ (hspec sn hsn))
        (hn _ (hspec sn hsn)) d
      rw [hpm] at hpm'; cases hpm'
      obtain ⟨a, h1⟩ := hok t cfg.dt (qom sn) (E sn fld) side q hq
      rw [h1] at he; cases he

end
/-! ### The hypotheses are met, and the bound is attained -/

-- Species H of the example of C85: mirrors at xmin and ymin.
example : passes (boxMirror .left) (boxMirror .right) = 2 ∧ passes (boxMirror .bottom) (boxMirror .top) = 2 ∧
    2 * (2 * 3 + 2 * 2) ≤ 18 + 2 := by decide
example : (boxMirror .left = false ∨ boxMirror .right = false) ∧ (boxMirror .bottom = false ∨ boxMirror .top = false) := by
  decide
-- three bounces
example : Within true true (0 : ℚ) 3 3 10 := (C86_reflections (by norm_num)).2.2 3 (by norm_num) (by norm_num)

/-- A particle that crosses a square of `N` times `N` boxes with diagonals of the kind "left", side length
`N`, absorbing sides, with the limit `n`: the error or the number of facets crossed. -/
def fineStep (N n : Nat) : Err ⊕ Option Nat :=
  match createXY (K := ℚ) 0 N 0 N N N none (some boxDict) none with
  | .error e => .inl e
  | .ok ms => match ms.particle with
    | none => .inr none
    | some pm => match moveCharged (le_refl 2) (boxMesh (0 : ℚ) N 0 N N N (fun _ _ => false) pm) .charged
        (namedBC (fun s => if s = "default_bc" then some (fun a => bcAbsorb a.1 a.2) else none) boxDict ["H"] "H")
        n 1 1 1 false (fun _ => none) ((), ![0, 0])
        ⟨![1 / 2, 1 / 4], ![1 / 2, 1 / 4], ![(N : ℚ), N], 0, false, false, 0, 7⟩ with
      | .error e => .inl e
      | .ok a => .inr (some a.2.1.crossings)

-- the bound `2 (nx + ny) - 2` of C86 is attained
example : fineStep 3 10 = .inr (some 10) := by decide +kernel
example : fineStep 3 9 = .inl .tooMany := by decide +kernel

/-- C86 is false on finer meshes: with the limit 100 of the code, a particle that crosses a square of 26
times 26 boxes with absorbing sides in one step stops the run. -/
theorem C86_false_fine : fineStep 26 100 = .inl .tooMany := by decide +kernel

-- It does not on a mesh of 25 times 26 boxes: the hypothesis `hn` of `C86_named_walls` for absorbing sides.
example {nx ny : Nat} (h : nx + ny ≤ 51) : 2 * (passes false false * nx + passes false false * ny) ≤ 100 + 2 := by
  simp only [passes, Bool.or_self, Bool.false_eq_true, if_false, Nat.one_mul]; omega

end Dt
