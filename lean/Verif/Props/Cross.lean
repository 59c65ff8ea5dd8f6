import Verif.Lemmas.CrossSector
import Verif.Props.Box
import Verif.Props.Sector
import Verif.Props.Crossed
import Verif.Props.Simulation

/-!
# The limit on crossings in any mesh (C102)
-/

set_option linter.unusedSectionVars false

namespace Dt
open Dt.Topology Spec Mark TimeLoop

section
variable {K : Type} [Field K] [LinearOrder K] [IsStrictOrderedRing K] {g p : Nat} {τ ρ : Type} {hg : g ≤ 3} {D : DMesh K g}
  {marker : Int → Int} {n m : Nat}

/-! ### How many cells there can be on a line -/

/-- C102 (plane).  Whatever the triangles of a mesh in the plane are like: no line goes through a triangle twice, even
if it goes through vertices or along edges; so it goes through at most as many triangles as there are. -/
theorem C102_plane {hg : 2 ≤ 3} {D : DMesh K 2} (hT : Triangulation hg D) : AtMost hg D D.cells.length :=
  atMost_of_rank (plane_rank hT)

/-- C102 (line).  The same for intervals. -/
theorem C102_line {hg : 1 ≤ 3} {D : DMesh K 1} (hT : Triangulation hg D) : AtMost hg D D.cells.length :=
  atMost_of_rank (line_rank hT)

/-- C102 (box).  Of the `6 nx ny nz` tetrahedra of a box, a line goes through at most `3 (nx + ny + nz) - 5`. -/
theorem C102_box {sqrt : K → K} {pmin pmax : Vec K 3} {nx ny nz : Nat} (hsq : ∀ s, 0 < s → 0 < sqrt s) (h : ∀ c, pmin c < pmax c)
    (hx : 1 ≤ nx) (hy : 1 ≤ ny) (hz : 1 ≤ nz) :
    AtMost (by decide : 3 ≤ 3) (Box.brickMesh sqrt pmin pmax nx ny nz) (3 * (nx + ny + nz) - 5) := by
  have step : ∀ {a b : K} {n : Nat}, a < b → 1 ≤ n → 0 < (b - a) / n := fun hab hn =>
    div_pos (sub_pos.2 hab) (by exact_mod_cast (by omega : 0 < _))
  exact Box.atMost hsq (step (h 0) hx) (step (h 1) hy) (step (h 2) hz) (fun _ => rfl) (fun _ => rfl) (fun _ => rfl) (by omega)

/-- C102 (sector).  Of the `2 nr nt` triangles of a sector of a ring, a line goes through at most `2 (nt + 2 nr - 2)`. -/
theorem C102_sector {rmin rmax stretch tmax : ℝ} {nr nt : Nat} (h : Spec.Sector.Proper rmin rmax stretch tmax nr nt) (d : Nat → Nat → Bool) :
    AtMost (by decide : 2 ≤ 3) (sector rmin rmax stretch tmax nr nt d) (2 * (nt + 2 * nr - 2)) := by
  have ht : (0 : ℝ) < nt := by exact_mod_cast h.rays
  exact Sector.polar_atMost (proper_polar h) (sector_draws h.outer) (δ := tmax / nt)
    (fun j => by unfold Sector.ray; push_cast; ring) (div_pos h.angle ht) h.half rfl

/-- C102 (crossed).  With crossed diagonals, of `4 nr nt` triangles a line goes through at most `4 (nt + 2 nr - 2)`. -/
theorem C102_crossed {rmin rmax stretch tmax : ℝ} {nr nt : Nat} (h : Spec.Sector.Proper rmin rmax stretch tmax nr nt)
    (hfit : Spec.Sector.Fits rmin rmax stretch tmax nr nt) :
    AtMost (by decide : 2 ≤ 3) (crossedSector rmin rmax stretch tmax nr nt) (4 * (nt + 2 * nr - 2)) := by
  have ht : (0 : ℝ) < nt := by exact_mod_cast h.rays
  exact Crossed.crossed_atMost (proper_polar h) ((fits_inside h).1 hfit) (sector_draws h.outer) (sector_mids h) (δ := tmax / nt)
    (fun j => by unfold Sector.ray; push_cast; ring) (div_pos h.angle ht) h.half rfl

/-! ### The mover -/

theorem short_way {h : g ≤ p} {M : Mesh K g} (hT : Triangulation hg D) {junk : Int} (e : buildMesh hg D junk marker = .ok M)
    (hM : M.Conforming) (hm : AtMost hg D m) {v : Variant} (hv : v.datum = .ok ())
    {bc : Int → τ → BCall K g p ρ → Except Err (τ × Part K p ρ)} (hbc : GoodBC h M (v.sharesDx = true) bc) (ha : Absorbs M bc)
    {k : Nat} {s s' : Trk K p τ ρ} (hc : CrossN h M v bc k s s') (hs : Sound h M s) : k < m := by
  obtain ⟨μ, hd, hr⟩ := downhill_built hT e hm (proj h (s.part.x - s.part.x0))
  obtain ⟨c, hcell, -, -⟩ := hs.ex
  obtain ⟨h1, h2⟩ := crossN_drop hM hv hbc ha hc hs hd
  have h3 := hr s.cell (by rw [hcell]; exact Option.some_ne_none c)
  have h4 := hr s'.cell h2
  omega

theorem never_too_many {h : g ≤ p} {M : Mesh K g} (hT : Triangulation hg D) {junk : Int} (e : buildMesh hg D junk marker = .ok M)
    (hM : M.Conforming) (hm : AtMost hg D m) (hn : m ≤ n) {v : Variant} (hv : v.datum = .ok ())
    {bc : Int → τ → BCall K g p ρ → Except Err (τ × Part K p ρ)} (hbc : GoodBC h M (v.sharesDx = true) bc) (ha : Absorbs M bc)
    (time dt qmdt : K) (accel : Bool) (E : Part K p ρ → Option (Vec K p)) (st : τ × Vec K p) {q : Part K p ρ} (hq : InItsCell h M q) :
    (∃ r, moveCharged h M v bc n time dt qmdt accel E st q = .ok r) ∧ ∃ r, moveNeutral h M v bc n time dt st q = .ok r := by
  obtain ⟨c, hc, hx⟩ := hq.get hM
  constructor
  · rcases C28_no_error hM hv hbc n time dt qmdt accel E st hq with hr | ⟨-, s', hcr, hout⟩
    · exact hr
    exfalso
    cases accel with
    | false =>
      simp only [Bool.false_eq_true, if_false] at hcr
      have := short_way hT e hM hm hv hbc ha hcr (moved_sound hM time dt qmdt E st.1 st.2 hq)
      omega
    | true =>
      simp only [if_true] at hcr
      have hcell : (accelerate qmdt (E q) q).cell = q.cell := by unfold accelerate; split <;> rfl
      have hxx : (accelerate qmdt (E q) q).x = q.x := by unfold accelerate; split <;> rfl
      have hin : M.isInside (proj h (startTrk time dt st.1 st.2 (accelerate qmdt (E q) q)).part.x)
          (startTrk time dt st.1 st.2 (accelerate qmdt (E q) q)).cell = .ok true := by
        simp only [startTrk, hcell, hxx]
        exact hq
      cases hcr with
      | zero => rw [hin] at hout; cases hout
      | succ out => rw [hin] at out; cases out
  · rcases C28_no_error_neutral hM hv hbc n time dt st hq with hr | ⟨-, s', hcr, -⟩
    · exact hr
    exfalso
    have := short_way hT e hM hm hv hbc ha hcr (start_sound hM (c := c) hc hx)
    omega

/-- C102.  In any triangulation whose boundary is marked and where particles are deleted at the boundary: if no line goes
through more cells than the limit on the number of facets crossed in a step allows, this limit is never reached.  However
fast the particle is and whatever the field is: it is moved, to a cell with the number then in its record, or deleted. -/
theorem C102_mover (hT : Triangulation hg D) (junk : Int)
    (hb : ∀ c ∈ D.cells, ∀ F ∈ c.facets, (∀ c' ∈ D.cells, F ∈ c'.facets → c'.index = c.index) → marker F ≠ 0)
    (hm : AtMost hg D m) (hn : m ≤ n) (h : g ≤ p) :
    ∃ M, buildMesh hg D junk marker = .ok M ∧ ∀ {v : Variant}, v.datum = .ok () →
      ∀ {bc : Int → τ → BCall K g p ρ → Except Err (τ × Part K p ρ)}, GoodBC h M (v.sharesDx = true) bc → KeepsCell bc → Absorbs M bc →
      ∀ (time dt qmdt : K) (accel : Bool) (E : Part K p ρ → Option (Vec K p)) (st : τ × Vec K p)
        (q : Part K p ρ), (∃ c ∈ D.cells, c.index = q.cell ∧ InHull (corner D c) (proj h q.x)) →
      (∃ st' q' evs, moveCharged h M v bc n time dt qmdt accel E st q = .ok (st', q', evs) ∧
        ((∃ c ∈ D.cells, c.index = q'.cell ∧ InHull (corner D c) (proj h q'.x)) ∨ (q'.del = true ∧ q'.cell = -1))) ∧
      ∃ st' q' evs, moveNeutral h M v bc n time dt st q = .ok (st', q', evs) ∧
        ((∃ c ∈ D.cells, c.index = q'.cell ∧ InHull (corner D c) (proj h q'.x)) ∨ (q'.del = true ∧ q'.cell = -1)) := by
  obtain ⟨M, e, -, hM⟩ := C88_conforming hT junk hb
  obtain ⟨M', e', -, hin, -⟩ := C88_points hT junk marker
  rw [e] at e'
  cases e'
  refine ⟨M, e, fun {v} hv {bc} hbc hk ha time dt qmdt accel E st q hq => ?_⟩
  obtain ⟨⟨⟨st1, q1, ev1⟩, h1⟩, ⟨st2, q2, ev2⟩, h2⟩ :=
    never_too_many hT e hM hm hn hv hbc ha time dt qmdt accel E st (q := q) ((hin _ _).2 hq)
  refine ⟨⟨st1, q1, ev1, h1, ?_⟩, st2, q2, ev2, h2, ?_⟩
  · rcases C25_cell_label hk (.inl h1) with h3 | h3
    · exact .inl ((hin _ _).1 h3)
    · exact .inr h3
  · rcases C25_cell_label (qmdt := qmdt) (accel := accel) (E := E) hk (.inr h2) with h3 | h3
    · exact .inl ((hin _ _).1 h3)
    · exact .inr h3

/-- C102 (no cell twice).  Where lines go through each cell at most once, as in the plane, a particle never comes back
within a step to a cell it has left; unlike in C26 it may pass through points where facets meet. -/
theorem C102_each_cell_once (hT : Triangulation hg D) (junk : Int)
    (hb : ∀ c ∈ D.cells, ∀ F ∈ c.facets, (∀ c' ∈ D.cells, F ∈ c'.facets → c'.index = c.index) → marker F ≠ 0)
    (hm : AtMost hg D m) (h : g ≤ p) :
    ∃ M, buildMesh hg D junk marker = .ok M ∧ ∀ {v : Variant}, v.datum = .ok () →
      ∀ {bc : Int → τ → BCall K g p ρ → Except Err (τ × Part K p ρ)}, GoodBC h M (v.sharesDx = true) bc → Absorbs M bc →
      ∀ (time dt qmdt : K) (E : Part K p ρ → Option (Vec K p)) (st : τ × Vec K p)
        (q : Part K p ρ), (∃ c ∈ D.cells, c.index = q.cell ∧ InHull (corner D c) (proj h q.x)) →
      ∀ {L : List (Int × Vec K p)} {s' : Trk K p τ ρ},
        CrossPath h M v bc L (startTrk time dt st.1 st.2 (movedPart dt qmdt E q)) s' →
        (L.map Prod.fst ++ [s'.cell]).Nodup ∧ L.length < m := by
  obtain ⟨M, e, -, hM⟩ := C88_conforming hT junk hb
  obtain ⟨M', e', -, hin, -⟩ := C88_points hT junk marker
  rw [e] at e'
  cases e'
  refine ⟨M, e, fun {v} hv {bc} hbc ha time dt qmdt E st q hq L s' hp => ?_⟩
  have hs := moved_sound hM time dt qmdt E st.1 st.2 (q := q) ((hin _ _).2 hq)
  generalize startTrk time dt st.1 st.2 (movedPart dt qmdt E q) = s at hp hs
  have toN : ∀ {L : List (Int × Vec K p)} {s s' : Trk K p τ ρ}, CrossPath h M v bc L s s' → CrossN h M v bc L.length s s' := by
    intro L s s' hp
    induction hp with
    | nil s => exact .zero s
    | cons out e r ih => exact .succ out e ih
  refine ⟨?_, short_way hT e hM hm hv hbc ha (toN hp) hs⟩
  obtain ⟨μ, hd, -⟩ := downhill_built hT e hm (proj h (s.part.x - s.part.x0))
  have key : ∀ {L : List (Int × Vec K p)} {s s' : Trk K p τ ρ}, CrossPath h M v bc L s s' → Sound h M s →
      Downhill M (proj h (s.part.x - s.part.x0)) μ → ∀ ci ∈ L.map Prod.fst ++ [s'.cell], μ ci ≤ μ s.cell := by
    intro L s s' hp
    induction hp with
    | nil s => intro _ _ ci hci; simp at hci; rw [hci]
    | @cons L s s1 s' out e r ih =>
      intro hs hd ci hci
      obtain ⟨s2, brk, e2, hs2⟩ := cross_sound hM hv hbc hs out
      rw [e] at e2
      cases e2
      obtain ⟨hd1, hlt⟩ := downhill_step hM hbc ha e hs out hd
      simp only [List.map_cons, List.cons_append, List.mem_cons] at hci
      rcases hci with rfl | hci
      · exact le_rfl
      · exact (ih (hs2 rfl) hd1 ci hci).trans hlt.le
  induction hp with
  | nil s => simp
  | @cons L s s1 s' out e r ih =>
    obtain ⟨s2, brk, e2, hs2⟩ := cross_sound hM hv hbc hs out
    rw [e] at e2
    cases e2
    obtain ⟨hd1, hlt⟩ := downhill_step hM hbc ha e hs out hd
    simp only [List.map_cons, List.cons_append, List.nodup_cons]
    refine ⟨fun hmem => ?_, ih (hs2 rfl) hd1⟩
    have := key r (hs2 rfl) hd1 _ hmem
    omega

/-- C102 (box, mover).  With at most `(n + 5) / 3` boxes along the three edges together, a particle in a box whose surface
absorbs particles always makes its leapfrog step: it is marked for deletion exactly if this takes it out of the box,
otherwise it is in the tetrahedron with the number in its record. -/
theorem C102_box_mover {sqrt : K → K} {pmin pmax : Vec K 3} {nx ny nz : Nat} (hsq : ∀ s, 0 < s → 0 < sqrt s) (h : ∀ c, pmin c < pmax c)
    (hx : 1 ≤ nx) (hy : 1 ≤ ny) (hz : 1 ≤ nz) (hn : 3 * (nx + ny + nz) ≤ n + 5) {D : DMesh K 3}
    (hD : D = Box.brickMesh sqrt pmin pmax nx ny nz) (junk : Int)
    (hb : ∀ c ∈ D.cells, ∀ F ∈ c.facets, (∀ c' ∈ D.cells, F ∈ c'.facets → c'.index = c.index) → marker F ≠ 0) :
    ∃ M, buildMesh (by decide) D junk marker = .ok M ∧
      ∀ {v : Variant}, v.datum = .ok () →
      ∀ {bc : Int → τ → BCall K 3 3 ρ → Except Err (τ × Part K 3 ρ)}, PlainBC M bc →
      ∀ (time dt qom : K) (E : Part K 3 ρ → Option (Vec K 3)) (st : τ × Vec K 3) (q : Part K 3 ρ), InSimplex D q →
        ∃ st' q' evs, moveCharged (le_refl 3) M v bc n time dt (qom * dt) false E st q = .ok (st', q', evs) ∧
          kin q' = leap dt qom (E q) (kin q) ∧ (q'.del = true ↔ ¬ InBrick pmin pmax q'.x) ∧
          (InBrick pmin pmax q'.x → ∃ c ∈ D.cells, c.index = q'.cell ∧ InHull (corner D c) q'.x) := by
  subst hD
  have hT := C101_box hsq h nx ny nz
  obtain ⟨M, e, -, hM⟩ := C88_conforming hT junk hb
  obtain ⟨M', e', hmv⟩ := C101_mover (τ := τ) (ρ := ρ) hsq h hx hy hz rfl junk hb
  rw [e] at e'
  cases e'
  refine ⟨M, e, fun {v} hv {bc} hbc time dt qom E st q hq => ?_⟩
  rcases hmv hv hbc n time dt qom E st q hq with hr | hr
  · exact hr
  · obtain ⟨⟨r, h1⟩, -⟩ := never_too_many hT e hM (C102_box hsq h hx hy hz) (n := n) (by omega) hv hbc.good hbc.absorbs time dt
      (qom * dt) false E st ((present_built hT e).2 hq).1
    rw [h1] at hr
    cases hr

/-- C102 (runs).  A simulation on such a mesh, with good sources and initial particles: whatever the fields, charges, masses
and the time step are, the run ends normally, or by the assertion of a source that appends to a container (C70), unless a
species loses all its particles in one step (C14). -/
theorem C102_run {V φ : Type} (hT : Triangulation hg D) (junk : Int)
    (hb : ∀ c ∈ D.cells, ∀ F ∈ c.facets, (∀ c' ∈ D.cells, F ∈ c'.facets → c'.index = c.index) → marker F ≠ 0)
    (hm : AtMost hg D m) (hn : m ≤ n) :
    ∃ M, buildMesh hg D junk marker = .ok M ∧
      ∀ {bc : String → Int → τ → BCall K g g ρ → Except Err (τ × Part K g ρ)}, (∀ sn, PlainBC M (bc sn)) →
      ∀ {qom : String → K} {E : String → φ → Part K g ρ → Option (Vec K g)} {cfg : Cfg K V (Part K g ρ) (τ × Vec K g) φ},
        cfg.move = pyMove (le_refl g) M bc n cfg.dt qom E →
        (∀ s ∈ cfg.sources, ∀ count time side side' xs, s.make count time side = .ok (side', xs) → ∀ q ∈ xs, InSimplex D q) →
        ∀ {onMesh : Part K g ρ → Bool}, (∀ q, InSimplex D q → onMesh q = true) →
        ∀ {dd : Nat → Nat} {sl dofs C : Nat}, GoodCfg cfg → GoodMesh cfg onMesh dd dofs C →
        ∀ {z : Species.HRow K} (k : Nat) {init : Option (List (String × List (Part K g ρ)))},
        (∀ gs, init = some gs → ∀ a ∈ gs, ∀ q ∈ a.2, InSimplex D q) →
        ∀ {st : State K V (Part K g ρ) (τ × Vec K g) φ} {i : Ideal K V (Part K g ρ) (τ × Vec K g)} {b : List K},
        Fresh sl dofs C k z st i b → (st.writer = none → cfg.partEvery = none) →
        SourcesGood (i.pops.map (·.name)) cfg.sources → (∀ gs, init = some gs → ∀ a ∈ gs, a.1 ∈ i.pops.map (·.name)) →
        Ideal.run cfg sl dofs onMesh init b k i ≠ .error .allLost →
        (∃ st', run cfg init k st = .ok st') ∨ (cfg.sources ≠ [] ∧ run cfg init k st = .error .assertion) := by
  obtain ⟨M, e, -, hM⟩ := C88_conforming hT junk hb
  refine ⟨M, e, ?_⟩
  intro bc hbc qom E cfg hmove hsrc onMesh hon dd sl dofs C hc hgm z k init hinit st i b hf hnone hsg hig hlost
  have hsrc' : SourcesPresent (le_refl g) M cfg.sources := fun s hs c t sd sd' xs ex q hq =>
    (present_built hT e).2 (hsrc s hs c t sd sd' xs ex q hq)
  have hinit' : InitPresent (le_refl g) M init := fun gs hgs a ha q hq => (present_built hT e).2 (hinit gs hgs a ha q hq)
  have hon' : ∀ q, Present (le_refl g) M q → onMesh q = true := fun q hq => hon q ((present_built hT e).1 hq)
  have key := C68_run hc hgm k init hf hnone
  cases hr : Ideal.run cfg sl dofs onMesh init b k i with
  | ok r =>
    rw [hr] at key
    obtain ⟨_, st', e, _⟩ := key
    exact .inl ⟨st', e⟩
  | error flt =>
    rw [hr] at key
    rcases run_faults hM hmove (fun sn => (hbc sn).keepsCell) hsrc' hon' k hinit' (fun sn _ => (hbc sn).good) hf.empty hsg hig hr
      with rfl | ⟨rfl, hs⟩ | ⟨rfl, sn, fld, side, q, t, hsn, hq, he⟩
    · exact absurd hr hlost
    · exact .inr ⟨hs, key⟩
    · obtain ⟨⟨r, h1⟩, -⟩ := never_too_many hT e hM hm hn (v := .charged) rfl (hbc sn).good (hbc sn).absorbs t cfg.dt (qom sn * cfg.dt) false
        (E sn fld) side hq.1
      rw [h1] at he
      cases he

end

/-! ### The hypotheses are met, and the bound is attained -/

/-- A cube of `N` times `N` times `N` boxes with all facets at its surface marked; the positive numbers themselves serve as
square roots. -/
def cubeQ (N : Nat) : DMesh ℚ 3 := Box.brickMesh id ![0, 0, 0] ![1, 1, 1] N N N

def surface (N : Nat) : Int → Int := fun F => if ((cubeQ N).cells.filter (fun c => decide (F ∈ c.facets))).length = 1 then 1 else 0

theorem surface_marked (N : Nat) : ∀ c ∈ (cubeQ N).cells, ∀ F ∈ c.facets,
    (∀ c' ∈ (cubeQ N).cells, F ∈ c'.facets → c'.index = c.index) → surface N F ≠ 0 := by
  intro c hc F hF hone
  have hT := C101_box (sqrt := id) (pmin := (![0, 0, 0] : Vec ℚ 3)) (pmax := ![1, 1, 1]) (fun _ h => h)
    (by intro c; fin_cases c <;> simp) N N N
  have hn : ((cubeQ N).cells.map (·.index)).Nodup := by
    have := hT.manifold.nodup
    simpa [DMesh.topo, facetDict, Function.comp_def, cubeQ] using this
  have h1 : (((cubeQ N).cells.filter (fun c => decide (F ∈ c.facets))).map (·.index)) ⊆ [c.index] := by
    intro z hz
    obtain ⟨c', hc', rfl⟩ := List.mem_map.1 hz
    obtain ⟨h2, h3⟩ := List.mem_filter.1 hc'
    exact List.mem_singleton.2 (hone c' h2 (by simpa using h3))
  have h2 := (List.subperm_of_subset (hn.sublist (List.Sublist.map _ List.filter_sublist)) h1).length_le
  have h3 : 0 < ((cubeQ N).cells.filter (fun c => decide (F ∈ c.facets))).length :=
    List.length_pos_of_mem (List.mem_filter.2 ⟨hc, by simpa using hF⟩)
  rw [List.length_map] at h2
  simp only [List.length_singleton] at h2
  unfold surface
  rw [if_pos (by omega)]
  decide

-- A cube of 11 x 11 x 11 boxes is within the limit 100 of the code, for any speed and any field.
example : 3 * (11 + 11 + 11) ≤ 100 + 5 := by decide
-- A ring of 10 x 20 boxes is, too; with crossed diagonals, one of 5 x 15 boxes.
example : 2 * (20 + 2 * 10 - 2) ≤ 100 ∧ 4 * (15 + 2 * 5 - 2) ≤ 100 := by decide
-- Two triangles with absorbing edges: whatever the velocity and the field, two crossings suffice.
example (u e : Vec ℚ 2) : ∃ M, buildMesh (by decide) (kite false) 0 (fun F => if F = 1 then 0 else 1) = .ok M ∧
    ∃ st' q' evs, moveCharged (le_refl 2) M .charged kiteSink 2 0 1 1 false (fun _ => some e) ((), ![0, 0])
      ⟨![1, 1 / 2], ![1, 1 / 2], u, 0, false, false, 1, 7⟩ = .ok (st', q', evs) := by
  obtain ⟨M, eM, key⟩ := C102_mover (τ := Unit) (ρ := Nat) (n := 2) kite_triangulation 0 (marker := fun F => if F = 1 then 0 else 1)
    (by decide) (C102_plane kite_triangulation) (by decide) (le_refl 2)
  have hb := kite_sink M (kite_interior eM)
  obtain ⟨⟨st', q', evs, h1, -⟩, -⟩ := key (v := .charged) rfl hb.good hb.keepsCell hb.absorbs 0 1 1 false (fun _ => some e) ((), ![0, 0])
    ⟨![1, 1 / 2], ![1, 1 / 2], u, 0, false, false, 1, 7⟩ (by
      refine ⟨(kiteCells false)[0], by simp [kite], rfl, ?_⟩
      have : InHull (corner (kite false) ((kiteCells false)[0])) (![1, 1 / 2] : Vec ℚ 2) := ⟨![1 / 4, 1 / 2, 1 / 4], by decide +kernel⟩
      exact this)
  exact ⟨M, eM, st', q', evs, h1⟩

/-- The result of a step through one box of six tetrahedra with the limit `n`. -/
def throughBox (n : Nat) : Err ⊕ Nat :=
  match buildMesh (by decide) (cubeQ 1) 0 (surface 1) with
  | .error e => .inl e
  | .ok M => match moveCharged (τ := Unit) (ρ := Nat) (le_refl 3) M .charged (fun _ st b => bcAbsorb st b) n 1 1 1 false (fun _ => none)
      ((), ![0, 0, 0]) ⟨![7 / 8, 1 / 2, 1 / 8], ![7 / 8, 1 / 2, 1 / 8], ![-3, 1 / 5, 4], 0, false, false, 0, 7⟩ with
    | .error e => .inl e
    | .ok a => .inr a.2.1.crossings

-- the bound `3 (nx + ny + nz) - 5 = 4` of `C102_box` is attained
example : throughBox 4 = .inr 4 := by decide +kernel
example : throughBox 3 = .inl .tooMany := by decide +kernel

end Dt
