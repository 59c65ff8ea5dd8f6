import Verif.Lemmas.CrossedRect
import Verif.Lemmas.CrossedMark
import Verif.Props.RectMesh
import Verif.Props.Cross

/-!
# Rectangles with crossed diagonals (C103)
-/

set_option linter.unusedSectionVars false

namespace Dt
open Mark Spec Spec.Mark Rect Dt.Topology Crossed
variable {K : Type} [Field K] [LinearOrder K] [IsStrictOrderedRing K] {τ ρ : Type}

/-- The mesh `create_mesh` makes of a rectangle, with crossed diagonals. -/
abbrev crossedRect (sq : K → K) (xmin xmax ymin ymax : K) (nx ny : Nat) : DMesh K 2 :=
  Crossed.dmesh sq (gridPoint xmin xmax nx) (gridPoint ymin ymax ny) nx ny

section
variable {sq : K → K} {xmin xmax ymin ymax : K} {nx ny : Nat}

theorem grid_rising {a b : K} {n : Nat} (h : a < b) : Box.Rising (gridPoint a b n) n := fun i hi => gridPoint_lt h (by omega) i

/-- C103 (triangles).  The mesh is a triangulation of the rectangle with four triangles per box, for every number of
boxes. -/
theorem C103_triangulation (hsq : Root sq) (hx : xmin < xmax) (hy : ymin < ymax) (hnx : 1 ≤ nx) (hny : 1 ≤ ny) :
    Triangulation (by decide : 2 ≤ 3) (crossedRect sq xmin xmax ymin ymax nx ny) ∧
    (crossedRect sq xmin xmax ymin ymax nx ny).cells.length = 4 * (nx * ny) ∧
    ∀ p, (∃ c ∈ (crossedRect sq xmin xmax ymin ymax nx ny).cells, InHull (corner (crossedRect sq xmin xmax ymin ymax nx ny) c) p) ↔
      inBounds xmin xmax ymin ymax p = true := by
  refine ⟨rect_triangulation hsq.pos (grid_rising hx) (grid_rising hy), ?_, fun p => ?_⟩
  · simp [Crossed.dmesh, Crossed.simplices, List.length_flatMap]
    ring
  · have := rect_points (sq := sq) hnx hny (grid_rising hx (n := nx)) (grid_rising hy (n := ny)) p
    rwa [gridPoint_zero, gridPoint_zero, gridPoint_last hnx, gridPoint_last hny] at this

/-- The tag of the side, 0 inside. -/
theorem crossed_tags (hnx : 1 ≤ nx) (hny : 1 ≤ ny) {x y : Nat → K} {tag : Rect.Side → Int} {pm : RFacet K → Int}
    (hpm : ∀ f, IsRect nx ny f → pm f = rectTag nx ny (tag .left) (tag .right) (tag .bottom) (tag .top) f) :
    (∀ i j t, i < nx → j < ny → AtSide nx ny i j t →
      Crossed.markerOf x y nx ny pm (facetNo nx (sideLabel i j t)) = tag t.side) ∧
    ∀ F, (∀ i j t, i < nx → j < ny → AtSide nx ny i j t → F ≠ facetNo nx (sideLabel i j t)) → Crossed.markerOf x y nx ny pm F = 0 := by
  constructor
  · intro i j t hi hj h
    cases t <;> simp only [AtSide] at h
    · subst h
      rw [show sideLabel i 0 .bottom = (i, 0, 0) from rfl, marker_h hi (by omega), hpm (.h i 0) ⟨hi, by omega⟩]
      simp [rectTag, Tri.side]
    · subst h
      rw [show sideLabel 0 j .left = (0, j, 1) from rfl, marker_v (by omega) hj, hpm (.v 0 j) ⟨by omega, hj⟩]
      simp [rectTag, Tri.side]
    · subst h
      rw [show sideLabel i j .right = (i + 1, j, 1) from rfl, marker_v le_rfl hj, hpm (.v (i + 1) j) ⟨le_rfl, hj⟩]
      simp [rectTag, Tri.side]
    · subst h
      rw [show sideLabel i j .top = (i, j + 1, 0) from rfl, marker_h hi le_rfl, hpm (.h i (j + 1)) ⟨hi, le_rfl⟩]
      simp [rectTag, Tri.side]
  · intro F hF
    unfold Crossed.markerOf
    cases hf : Crossed.facetOf x y nx ny F with
    | none => rfl
    | some f =>
      rw [Option.map_some, Option.getD_some]
      have hno : ∀ {I J q : Nat}, ¬ F < 0 → F % 6 = q → (F / 6).toNat % (nx + 1) = I → (F / 6).toNat / (nx + 1) = J → F = facetNo nx (I, J, q) := by
        intro I J q h0 h1 h2 h3
        have h4 := Nat.div_add_mod (F / 6).toNat (nx + 1)
        rw [h2, h3] at h4
        unfold facetNo vertNo
        simp only
        rw [Nat.mul_comm J, h4]
        omega
      unfold Crossed.facetOf at hf
      dsimp only at hf
      split at hf
      · cases hf
      rename_i h0
      split at hf
      · rename_i h1
        split at hf
        · rename_i h2
          have e := hno h0 (q := 0) (by omega) rfl rfl
          cases hf
          rw [hpm (.h _ _) ⟨h2.1, h2.2⟩]
          simp only [rectTag]
          rw [if_neg, if_neg]
          · intro h3
            refine hF ((F / 6).toNat % (nx + 1)) (ny - 1) .top h2.1 (by omega) (by simp only [AtSide]; omega) ?_
            show _ = facetNo nx (_, ny - 1 + 1, 0)
            rw [Nat.sub_add_cancel hny]
            rwa [h3] at e
          · intro h3
            refine hF ((F / 6).toNat % (nx + 1)) 0 .bottom h2.1 (by omega) rfl ?_
            rw [h3] at e
            exact e
        · cases hf
      · split at hf
        · rename_i h1
          split at hf
          · rename_i h2
            have e := hno h0 (q := 1) (by omega) rfl rfl
            cases hf
            rw [hpm (.v _ _) ⟨h2.1, h2.2⟩]
            simp only [rectTag]
            rw [if_neg, if_neg]
            · intro h3
              refine hF (nx - 1) ((F / 6).toNat / (nx + 1)) .right (by omega) h2.2 (by simp only [AtSide]; omega) ?_
              show _ = facetNo nx (nx - 1 + 1, _, 1)
              rw [Nat.sub_add_cancel hnx]
              rwa [h3] at e
            · intro h3
              refine hF 0 ((F / 6).toNat / (nx + 1)) .left (by omega) h2.2 rfl ?_
              rw [h3] at e
              exact e
          · cases hf
        · split at hf
          · cases hf
            rw [hpm (.inner _ _) trivial]; rfl
          · cases hf

theorem crossed_marked (hnx : 1 ≤ nx) (hny : 1 ≤ ny) {x y : Nat → K} {tag : Rect.Side → Int} (hpos : ∀ sd, 0 < tag sd) {pm : RFacet K → Int}
    (hpm : ∀ f, IsRect nx ny f → pm f = rectTag nx ny (tag .left) (tag .right) (tag .bottom) (tag .top) f) :
    ∀ c ∈ (Crossed.dmesh sq x y nx ny).cells, ∀ F ∈ c.facets,
      (∀ c' ∈ (Crossed.dmesh sq x y nx ny).cells, F ∈ c'.facets → c'.index = c.index) → Crossed.markerOf x y nx ny pm F ≠ 0 := by
  intro c hc F hF hone
  obtain ⟨k, hk⟩ := List.getElem?_of_mem hF
  obtain ⟨i, j, t, hi, hj, -, -, rfl, hs⟩ := outside_side ⟨hc, hk, hone⟩
  rw [(crossed_tags hnx hny hpm).1 i j t hi hj hs]
  exact (hpos _).ne'

/-- C103 (named walls).  As C85_named_walls: at every outer facet the particles of a species meet the most specific of the
callbacks for the side the facet is on, and no callback in between. -/
theorem C103_named_walls (hsq : Root sq) (hx : xmin < xmax) (hy : ymin < ymax) (hnx : 1 ≤ nx) (hny : 1 ≤ ny) {pd : Dict}
    (hg : GoodTags pd) (hsides : ∀ sd : Rect.Side, ∃ t, (sd.name, t) ∈ pd)
    (hw : (1 / 10 ^ 10 : K) ≤ xmax - xmin) (hdy : (1 / 10 ^ 10 : K) ≤ (ymax - ymin) / ny) {ms : Marks (RFacet K)}
    (e : createXY xmin xmax ymin ymax nx ny none (some pd) none = .ok ms) (junk : Int)
    {cb : Callbacks (τ × BCall K 2 2 ρ → Except Err (τ × Part K 2 ρ))} {species : List String} {sn : String}
    (hs : sn ∈ species) {f : Rect.Side → τ × BCall K 2 2 ρ → Except Err (τ × Part K 2 ρ)} {m : Rect.Side → Bool}
    (hp : ∀ sd, Provided cb sd.name sn (f sd)) (ha : ∀ sd, ActsLike (m sd) (f sd)) :
    ∃ pm M, ms.particle = some pm ∧
      buildMesh (by decide : 2 ≤ 3) (crossedRect sq xmin xmax ymin ymax nx ny) junk
        (Crossed.markerOf (gridPoint xmin xmax nx) (gridPoint ymin ymax ny) nx ny pm) = .ok M ∧
      M.Conforming ∧ (∀ q, M.Points q ↔ inBounds xmin xmax ymin ymax q = true) ∧
      Walled M (walls xmin xmax ymin ymax m) (sideNo nx) ∧
      (∀ F n, M.Boundary F n → ∀ st call, namedBC cb pd species sn (M.marker F) st call = f (sideNo nx F) (st, call)) ∧
      (∀ F, (∀ n, ¬ M.Boundary F n) → M.marker F = 0) ∧
      BilliardBC M (walls xmin xmax ymin ymax m) (sideNo nx) (namedBC cb pd species sn) := by
  choose tag htag using hsides
  have hpos : ∀ sd, 0 < tag sd := fun sd => hg.pos _ (htag sd)
  obtain ⟨pm, hpm, hv⟩ := rect_particle hx hy hnx hny hg.keys htag (fun sd => (hpos sd).le) hw hdy e
  obtain ⟨mside, mother⟩ := crossed_tags (x := gridPoint xmin xmax nx) (y := gridPoint ymin ymax ny) hnx hny hv
  have rx := grid_rising (n := nx) hx
  have ry := grid_rising (n := ny) hy
  obtain ⟨hT, -, hpts⟩ := C103_triangulation hsq hx hy hnx hny
  obtain ⟨M, eM, hmark, hconf⟩ := C88_conforming hT junk (crossed_marked hnx hny hpos hv)
  obtain ⟨M1, eM1, hMp, -⟩ := C88_points hT junk (Crossed.markerOf (gridPoint xmin xmax nx) (gridPoint ymin ymax ny) nx ny pm)
  rw [eM] at eM1
  cases eM1
  have hW := rect_walls hsq hnx hny rx ry m
  rw [gridPoint_zero, gridPoint_zero, gridPoint_last hnx, gridPoint_last hny] at hW
  have hwl := walled_built hT eM hW
  have hcall : ∀ F n, M.Boundary F n → ∀ st call, namedBC cb pd species sn (M.marker F) st call = f (sideNo nx F) (st, call) := by
    intro F n hB st call
    obtain ⟨c, k, ho, -⟩ := (boundary_built hT eM).1 hB
    obtain ⟨i, j, t, hi, hj, rfl, rfl, rfl, hs'⟩ := outside_side ho
    rw [hmark, mside i j t hi hj hs', sideNo_of hnx hny hi hs']
    exact provided_call hs (tagOf_of hg.inj (htag _)) (hp _) _
  have hzero : ∀ F, (∀ n, ¬ M.Boundary F n) → M.marker F = 0 := by
    intro F hF
    rw [hmark]
    refine mother F fun i j t hi hj hs' he => ?_
    subst he
    exact hF _ ((boundary_built hT eM).2 ⟨_, 2, side_outside hi hj hs', rfl⟩)
  refine ⟨pm, M, hpm, eM, hconf, fun q => (hMp q).trans (hpts q), hwl, hcall, hzero, ?_, ?_, ?_⟩
  · intro F n hB st call _
    rw [hcall F n hB, walls_mirror]
    exact ha (sideNo nx F) st call
  · intro F hF st call _
    right
    refine ⟨hzero F hF, .key, ?_⟩
    rw [hzero F hF]
    have : invName pd 0 = none := invName_none (fun e he => (hg.pos e he).ne')
    simp [namedBC, callBC, bcDict, this]
  · intro F n hB
    exact split_built hT eM hB

/-- C103 (crossings).  A line meets at most `4 (nx + ny - 1)` triangles. -/
theorem C103_crossings (hsq : Root sq) (hx : xmin < xmax) (hy : ymin < ymax) :
    AtMost (by decide : 2 ≤ 3) (crossedRect sq xmin xmax ymin ymax nx ny) (4 * (nx + ny - 1)) :=
  rect_atMost hsq (grid_rising hx) (grid_rising hy) rfl

/-- C103 (one particle).  A step of the charged mover is a leapfrog step of a billiard ball in the rectangle whose sides have
the properties of the named callbacks, unless it ends because of too many crossings; with walls that absorb particles and at most
`n / 4 + 1` boxes along the two sides together it does not end this way. -/
theorem C103_particle (hsq : Root sq) (hx : xmin < xmax) (hy : ymin < ymax) (hnx : 1 ≤ nx) (hny : 1 ≤ ny) {pd : Dict}
    (hg : GoodTags pd) (hsides : ∀ sd : Rect.Side, ∃ t, (sd.name, t) ∈ pd)
    (hw : (1 / 10 ^ 10 : K) ≤ xmax - xmin) (hdy : (1 / 10 ^ 10 : K) ≤ (ymax - ymin) / ny) {ms : Marks (RFacet K)}
    (e : createXY xmin xmax ymin ymax nx ny none (some pd) none = .ok ms) (junk : Int) :
    ∃ pm M, ms.particle = some pm ∧
      buildMesh (by decide : 2 ≤ 3) (crossedRect sq xmin xmax ymin ymax nx ny) junk
        (Crossed.markerOf (gridPoint xmin xmax nx) (gridPoint ymin ymax ny) nx ny pm) = .ok M ∧ M.Conforming ∧
      ∀ {cb : Callbacks (τ × BCall K 2 2 ρ → Except Err (τ × Part K 2 ρ))} {species : List String} {sn : String}, sn ∈ species →
      ∀ {f : Rect.Side → τ × BCall K 2 2 ρ → Except Err (τ × Part K 2 ρ)} {m : Rect.Side → Bool},
      (∀ sd, Provided cb sd.name sn (f sd)) → (∀ sd, ActsLike (m sd) (f sd)) →
      ∀ {n : Nat} {time dt qom : K} {E : Part K 2 ρ → Option (Vec K 2)} {st : τ × Vec K 2} {q : Part K 2 ρ},
      InSimplex (crossedRect sq xmin xmax ymin ymax nx ny) q →
      (∀ {st' q' evs}, moveCharged (le_refl 2) M .charged (namedBC cb pd species sn) n time dt (qom * dt) false E st q =
          .ok (st', q', evs) →
        BoxStep xmin xmax ymin ymax m q.x (leap dt qom (E q) (kin q)) (kin q') q'.del) ∧
      (∀ {er}, moveCharged (le_refl 2) M .charged (namedBC cb pd species sn) n time dt (qom * dt) false E st q = .error er →
        er = .tooMany) ∧
      ((∀ sd, m sd = false) → 4 * (nx + ny) ≤ n + 4 →
        ∃ r, moveCharged (le_refl 2) M .charged (namedBC cb pd species sn) n time dt (qom * dt) false E st q = .ok r) := by
  have hsides' := hsides
  choose tag htag using hsides'
  obtain ⟨pm, hpm, hv⟩ := rect_particle hx hy hnx hny hg.keys htag (fun sd => (hg.pos _ (htag sd)).le) hw hdy e
  have hT := (C103_triangulation hsq hx hy hnx hny).1
  obtain ⟨M, eM, -, hconf⟩ := C88_conforming hT junk (crossed_marked hnx hny (fun sd => hg.pos _ (htag sd)) hv)
  refine ⟨pm, M, hpm, eM, hconf, fun {cb species sn} hs {f m} hp ha {n time dt qom E st q} hq => ?_⟩
  obtain ⟨pm', M', hpm', eM', hM, hpt, hwl, -, -, hb⟩ := C103_named_walls hsq hx hy hnx hny hg hsides hw hdy e junk hs hp ha
  rw [hpm] at hpm'
  cases hpm'
  rw [eM] at eM'
  cases eM'
  have hq' := (present_built hT eM).2 hq
  refine ⟨fun em => ?_, fun {er} em => ?_, fun hm hn => ?_⟩
  · have := C84_particle hM rfl rfl hwl hb hq' em
    rw [show M.Points = fun q => inBounds xmin xmax ymin ymax q = true from funext fun q => propext (hpt q)] at this
    exact BoxStep.of hx.le hy.le this
  · rcases C84_no_error (v := .charged) hM rfl rfl hwl hb n time dt (qom * dt) E st hq' with ⟨r, hr⟩ | hr
    · rw [hr] at em; cases em
    · rw [hr] at em; cases em; rfl
  · refine (never_too_many hT eM hM (C103_crossings hsq hx hy) (by omega) rfl (hb.good hwl (.inl rfl)) ?_ time dt (qom * dt) false E st hq'.1).1
    intro st call st' q' N em hB
    obtain ⟨s0, h1⟩ := hb.outer _ N hB st call rfl
    rw [h1, walls_mirror, hm] at em
    cases em
    rfl

open TimeLoop in
open Spec (LState Stores Pop Ideal Fault lastOf) in
/-- C103 (a whole simulation).  Named walls that delete the particles, at most `maxCross / 4 + 1` boxes along the two sides
together, good sources and initial particles: unless a species loses all its particles in one step (C14), the run ends normally, or
by the assertion of a source that appends to a container (C70).  If it ends normally, from each step to the next the particles make
leapfrog steps, and those outside the rectangle are dropped. -/
theorem C103_run {V φ : Type} (hsq : Root sq) (hx : xmin < xmax) (hy : ymin < ymax) (hnx : 1 ≤ nx) (hny : 1 ≤ ny) {pd : Dict}
    (hg : GoodTags pd) (hsides : ∀ sd : Rect.Side, ∃ t, (sd.name, t) ∈ pd)
    (hw : (1 / 10 ^ 10 : K) ≤ xmax - xmin) (hdy : (1 / 10 ^ 10 : K) ≤ (ymax - ymin) / ny) {ms : Marks (RFacet K)}
    (e : createXY xmin xmax ymin ymax nx ny none (some pd) none = .ok ms) (junk : Int)
    {cb : Callbacks (τ × BCall K 2 2 ρ → Except Err (τ × Part K 2 ρ))} {species : List String}
    {f : String → Rect.Side → τ × BCall K 2 2 ρ → Except Err (τ × Part K 2 ρ)}
    (hp : ∀ sn ∈ species, ∀ sd : Rect.Side, Provided cb sd.name sn (f sn sd))
    (ha : ∀ sn ∈ species, ∀ sd, ActsLike false (f sn sd))
    (hcell : ∀ name f, cb name = some f → ∀ a st' q', f a = .ok (st', q') → q'.cell = a.2.part.cell)
    {maxCross : Nat} (hmax : 4 * (nx + ny) ≤ maxCross + 4) :
    ∃ pm M, ms.particle = some pm ∧
      buildMesh (by decide : 2 ≤ 3) (crossedRect sq xmin xmax ymin ymax nx ny) junk
        (Crossed.markerOf (gridPoint xmin xmax nx) (gridPoint ymin ymax ny) nx ny pm) = .ok M ∧
      ∀ {qom : String → K} {E : String → φ → Part K 2 ρ → Option (Vec K 2)}
        {cfg : Cfg K V (Part K 2 ρ) (τ × Vec K 2) φ},
        cfg.move = pyMove (le_refl 2) M (namedBC cb pd species) maxCross cfg.dt qom E →
        (∀ s ∈ cfg.sources, ∀ count time side side' xs, s.make count time side = .ok (side', xs) →
          ∀ q ∈ xs, InSimplex (crossedRect sq xmin xmax ymin ymax nx ny) q) →
        ∀ {onMesh : Part K 2 ρ → Bool}, (∀ q, InSimplex (crossedRect sq xmin xmax ymin ymax nx ny) q → onMesh q = true) →
        ∀ {dd : Nat → Nat} {sl D C : Nat}, GoodCfg cfg → GoodMesh cfg onMesh dd D C →
        ∀ {z : Species.HRow K} (n : Nat) {init : Option (List (String × List (Part K 2 ρ)))},
        (∀ gs, init = some gs → ∀ a ∈ gs, ∀ q ∈ a.2, InSimplex (crossedRect sq xmin xmax ymin ymax nx ny) q) →
        ∀ {st : State K V (Part K 2 ρ) (τ × Vec K 2) φ} {i : Ideal K V (Part K 2 ρ) (τ × Vec K 2)} {b : List K},
        Fresh sl D C n z st i b → (i.pops.map (·.name)).Nodup → (∀ sn ∈ i.pops.map (·.name), sn ∈ species) →
        (st.writer = none → cfg.partEvery = none) →
        SourcesGood (i.pops.map (·.name)) cfg.sources → (∀ gs, init = some gs → ∀ a ∈ gs, a.1 ∈ i.pops.map (·.name)) →
        Ideal.run cfg sl D onMesh init b n i ≠ .error .allLost →
        (∃ st' i0 is, run cfg init n st = .ok st' ∧ Outcome cfg dd C init.isSome b st st' i0 is ∧
          (i0 :: is).IsChain (LeapStep (le_refl 2) (inBounds xmin xmax ymin ymax) qom E cfg sl D)) ∨
        (cfg.sources ≠ [] ∧ run cfg init n st = .error .assertion) := by
  have hT := (C103_triangulation hsq hx hy hnx hny).1
  obtain ⟨pm, M, hpm, eM, hM, hpart⟩ := C103_particle (τ := τ) (ρ := ρ) hsq hx hy hnx hny hg hsides hw hdy e junk
  refine ⟨pm, M, hpm, eM, ?_⟩
  intro qom E cfg hmove hsrc onMesh hon dd sl D C hc hgm z n init hinit st i b hf hn hspec hnone hsg hig hlost
  have hall : ∀ sn ∈ species, GoodBC (le_refl 2) M True (namedBC cb pd species sn) := by
    intro sn hs
    obtain ⟨pm', M', hpm', eM', -, -, hwl, -, -, hb⟩ :=
      C103_named_walls hsq hx hy hnx hny hg hsides hw hdy e junk hs (hp sn hs) (ha sn hs)
    rw [hpm] at hpm'
    cases hpm'
    rw [eM] at eM'
    cases eM'
    exact hb.good hwl (.inl trivial)
  have hsrc' : SourcesPresent (le_refl 2) M cfg.sources := fun s hs c t sd sd' xs ex q hq =>
    (present_built hT eM).2 (hsrc s hs c t sd sd' xs ex q hq)
  have hinit' : InitPresent (le_refl 2) M init := fun gs hgs a ha q hq => (present_built hT eM).2 (hinit gs hgs a ha q hq)
  have hon' : ∀ q, Present (le_refl 2) M q → onMesh q = true := fun q hq => hon q ((present_built hT eM).1 hq)
  have hkeep := fun sn => namedBC_keepsCell hcell pd species sn
  have key := C68_run hc hgm n init hf hnone
  cases hr : Ideal.run cfg sl D onMesh init b n i with
  | ok r =>
    obtain ⟨i0, is⟩ := r
    have part : ∀ sn fld time st q st' q' evs, Present (le_refl 2) M q →
        moveCharged (le_refl 2) M .charged (namedBC cb pd species sn) maxCross
          time cfg.dt (qom sn * cfg.dt) false (E sn fld) st q = .ok (st', q', evs) →
        kin q' = leap cfg.dt (qom sn) (E sn fld q) (kin q) ∧
          q'.del = !(inBounds xmin xmax ymin ymax (proj (le_refl 2) q'.x)) := by
      intro sn fld time st q st' q' evs hq em
      have hq' := (present_built hT eM).1 hq
      have fin : ∀ {cb' : Callbacks (τ × BCall K 2 2 ρ → Except Err (τ × Part K 2 ρ))} {species' : List String}
          {f' : Rect.Side → τ × BCall K 2 2 ρ → Except Err (τ × Part K 2 ρ)}, sn ∈ species' →
          (∀ sd : Rect.Side, Provided cb' sd.name sn (f' sd)) → (∀ sd, ActsLike false (f' sd)) →
          moveCharged (le_refl 2) M .charged (namedBC cb' pd species' sn)
            maxCross time cfg.dt (qom sn * cfg.dt) false (E sn fld) st q = .ok (st', q', evs) →
          kin q' = leap cfg.dt (qom sn) (E sn fld q) (kin q) ∧
            q'.del = !(inBounds xmin xmax ymin ymax (proj (le_refl 2) q'.x)) := by
        intro cb' species' f' hs' hp' ha' em'
        obtain ⟨h1, h2⟩ := ((hpart (m := fun _ => false) hs' hp' ha' hq').1 em').holes (fun _ => rfl)
        refine ⟨h1, ?_⟩
        rw [h2, ← h1]; rfl
      by_cases hs : sn ∈ species
      · exact fin hs (hp sn hs) (ha sn hs) em
      · -- no callback for this species: it has met no marked facet
        refine fin (cb' := fun name => if name = "default_bc" then some (fun a => bcAbsorb a.1 a.2) else none)
          (species' := [sn]) (f' := fun _ a => bcAbsorb a.1 a.2) (by simp) ?_ (fun _ st call => ⟨st, rfl⟩)
          (moveCharged_mono ?_ em)
        · intro sd
          refine .inr (.inr ⟨?_, ?_, by simp⟩)
          · cases sd <;> simp [Rect.Side.name, String.ext_iff]
          · cases sd <;> simp [Rect.Side.name, String.ext_iff]
        · intro value st call r er
          exfalso
          unfold namedBC callBC bcDict at er
          simp only [if_neg hs] at er
          split at er
          · cases er
          · rename_i hh; split at hh <;> cases hh
          · rename_i hh; split at hh <;> cases hh
    obtain ⟨h1, st', h2, h3⟩ := motion_run (motion := fun sn f q => leap cfg.dt (qom sn) (E sn f q) (kin q))
      (keep := fun x => inBounds xmin xmax ymin ymax (proj (le_refl 2) x)) part hkeep hmove hsrc' hc hgm n hinit' hf hn hnone hr
    exact .inl ⟨st', i0, is, h2, h3, h1⟩
  | error flt =>
    rw [hr] at key
    rcases run_faults hM hmove hkeep hsrc' hon' n hinit' (fun sn hsn => hall sn (hspec sn hsn)) hf.empty hsg hig hr
      with rfl | ⟨rfl, hs⟩ | ⟨rfl, sn, fld, side, q, t, hsn, hq, he⟩
    · exact absurd hr hlost
    · exact .inr ⟨hs, key⟩
    · obtain ⟨r, h1⟩ := (hpart (m := fun _ => false) (hspec sn hsn) (hp sn (hspec sn hsn)) (ha sn (hspec sn hsn))
        ((present_built hT eM).1 hq) (n := maxCross) (time := t) (dt := cfg.dt) (qom := qom sn) (E := E sn fld) (st := side)).2.2 (fun _ => rfl) hmax
      rw [h1] at he
      cases he

end

/-! ### The hypotheses are met -/

theorem sqrt_root : Root Real.sqrt := ⟨fun _ h => Real.sqrt_pos.2 h, fun _ h => Real.sqrt_mul_self h.le⟩

/-- Mirrors at `xmin` and `ymin`; by default, delete. -/
noncomputable def crossedCB : Callbacks (Unit × BCall ℝ 2 2 Nat → Except Err (Unit × Part ℝ 2 Nat)) := fun s =>
  if s = "bc_at_xmin_for_H" ∨ s = "default_bc_at_ymin" then some (fun a => bcReflect a.1 a.2)
  else if s = "default_bc" then some (fun a => bcAbsorb a.1 a.2) else none

theorem crossed_provided (sd : Rect.Side) : Provided crossedCB sd.name "H"
    (fun a => if boxMirror sd then bcReflect a.1 a.2 else bcAbsorb a.1 a.2) := by
  cases sd
  · exact .inl rfl
  · exact .inr (.inr ⟨rfl, rfl, rfl⟩)
  · exact .inr (.inl ⟨rfl, rfl⟩)
  · exact .inr (.inr ⟨rfl, rfl, rfl⟩)

/-- The rectangle from (0, 0) to (3, 2) with 3 times 2 boxes.  Wherever the particle is and however fast, a step that
ends normally folds its way at the mirrors. -/
example (p u : Vec ℝ 2) (hp : inBounds 0 3 0 2 p = true) : ∃ pm M cell, createXY (0 : ℝ) 3 0 2 3 2 none (some boxDict) none = .ok ⟨none, some pm⟩ ∧
    buildMesh (by decide : 2 ≤ 3) (crossedRect Real.sqrt 0 3 0 2 3 2) 0 (Crossed.markerOf (gridPoint 0 3 3) (gridPoint 0 2 2) 3 2 pm) = .ok M ∧
    ∀ st' q' evs, moveCharged (le_refl 2) M .charged (namedBC crossedCB boxDict ["H", "He"] "H") 100 1 1 (1 * 1) false (fun _ => none)
        ((), ![0, 0]) ⟨p, p, u, cell, false, false, 0, 7⟩ = .ok (st', q', evs) →
      (q'.del = false → q'.x 0 = |p 0 + u 0| ∧ q'.x 1 = |p 1 + u 1|) ∧ (q'.del = true ↔ 3 < |p 0 + u 0| ∨ 2 < |p 1 + u 1|) := by
  obtain ⟨pm, e, -⟩ := C82_rectangle (K := ℝ) (xmin := 0) (xmax := 3) (ymin := 0) (ymax := 2) (by norm_num) (by norm_num) (nx := 3) (ny := 2)
    (by norm_num) (by norm_num) (d := boxDict) (by unfold IsDict; decide) (t1 := 1) (t2 := 2) (t3 := 4) (t4 := 8)
    (by decide) (by decide) (by decide) (by decide) (by decide) (by decide) (by decide) (by decide) (by decide) (by decide) (by decide)
  have hsides : ∀ sd : Rect.Side, ∃ t, (sd.name, t) ∈ boxDict := by
    intro sd
    cases sd
    · exact ⟨1, by decide⟩
    · exact ⟨2, by decide⟩
    · exact ⟨4, by decide⟩
    · exact ⟨8, by decide⟩
  obtain ⟨pm', M, h1, h2, -, h3⟩ := C103_particle (τ := Unit) (ρ := Nat) sqrt_root (xmin := 0) (xmax := 3) (ymin := 0) (ymax := 2)
    (by norm_num) (by norm_num) (nx := 3) (ny := 2) (by norm_num) (by norm_num) (pd := boxDict)
    ⟨by unfold IsDict; decide, by decide, by decide⟩ hsides (by norm_num) (by norm_num) e 0
  cases h1
  obtain ⟨c, hc, hh⟩ := ((C103_triangulation sqrt_root (xmin := 0) (xmax := 3) (ymin := 0) (ymax := 2) (by norm_num) (by norm_num)
    (nx := 3) (ny := 2) (by norm_num) (by norm_num)).2.2 p).2 hp
  refine ⟨pm, M, c.index, e, h2, fun st' q' evs em => ?_⟩
  have key := ((h3 (species := ["H", "He"]) (by simp) crossed_provided (fun sd st call => ⟨st, rfl⟩)
    (q := ⟨p, p, u, c.index, false, false, 0, 7⟩) ⟨⟨c, hc, rfl, hh⟩, rfl⟩).1 em).quarter rfl rfl rfl rfl
  have hf : ∀ i, (folded 0 (along i (leap 1 1 none (kin (⟨p, p, u, c.index, false, false, 0, 7⟩ : Part ℝ 2 Nat))))).1 0 = |p i + u i| := by
    intro i
    have e1 : (leap (1 : ℝ) 1 none (kin (⟨p, p, u, c.index, false, false, 0, 7⟩ : Part ℝ 2 Nat))).1 i = p i + u i := by simp [leap, kin]
    unfold folded
    split
    · rename_i hlt
      simp only [along] at hlt
      rw [e1] at hlt
      simp only [mirrored, along]
      rw [e1, abs_of_neg hlt]
      ring
    · rename_i hlt
      simp only [along, e1] at hlt ⊢
      rw [abs_of_nonneg (not_lt.1 hlt)]
  rw [hf, hf] at key
  refine ⟨fun hd => ?_, key.2⟩
  obtain ⟨k1, k2⟩ := key.1 hd
  have k1' := congrArg (fun z => z.1 0) k1
  have k2' := congrArg (fun z => z.1 0) k2
  rw [hf] at k1' k2'
  exact ⟨k1', k2'⟩

end Dt
