import Verif.Props.Billiard
import Verif.Props.NamedWalls

/-!
# Named walls of a rectangle (C85)
-/

set_option linter.unusedSectionVars false

namespace Dt
open Mark Spec.Mark Rect
variable {K : Type} [Field K] [LinearOrder K] [IsStrictOrderedRing K] {τ ρ : Type}

theorem gridPoint_lt {a b : K} (h : a < b) {n : Nat} (hn : 1 ≤ n) (i : Nat) :
    gridPoint a b n i < gridPoint a b n (i + 1) := by
  have : 0 < (b - a) / (n : K) := div_pos (sub_pos.2 h) (by exact_mod_cast hn)
  unfold gridPoint
  push_cast
  linarith

/-- The mesh `create_mesh` makes of a rectangle, with the particle markers `pm`. -/
abbrev boxMesh (xmin xmax ymin ymax : K) (nx ny : Nat) (d : Nat → Nat → Bool) (pm : RFacet K → Int) : Mesh K 2 :=
  mesh (gridPoint xmin xmax nx) (gridPoint ymin ymax ny) d nx ny
    (markerOf (gridPoint xmin xmax nx) (gridPoint ymin ymax ny) d nx ny pm)

section
variable {xmin xmax ymin ymax : K} {nx ny : Nat}

theorem rect_particle (hx : xmin < xmax) (hy : ymin < ymax) (hnx : 1 ≤ nx) (hny : 1 ≤ ny) {pd : Dict}
    (hpd : IsDict pd) {tag : Side → Int} (h : ∀ sd, (sd.name, tag sd) ∈ pd) (hpos : ∀ sd, 0 ≤ tag sd)
    (hw : (1 / 10 ^ 10 : K) ≤ xmax - xmin) (hdy : (1 / 10 ^ 10 : K) ≤ (ymax - ymin) / ny) {ms : Marks (RFacet K)}
    (e : createXY xmin xmax ymin ymax nx ny none (some pd) none = .ok ms) :
    ∃ pm, ms.particle = some pm ∧ ∀ f, IsRect nx ny f →
      pm f = rectTag nx ny (tag .left) (tag .right) (tag .bottom) (tag .top) f := by
  unfold createXY at e
  simp only [ifDict, bind, Except.bind, pure, Except.pure, Option.isSome_none, Bool.false_eq_true,
    if_false] at e
  have h1 : ("xmin", tag .left) ∈ pd := h .left
  have h2 : ("xmax", tag .right) ∈ pd := h .right
  have h3 : ("ymin", tag .bottom) ∈ pd := h .bottom
  have h4 : ("ymax", tag .top) ∈ pd := h .top
  rw [markFour_ok _ hpd h1 h2 h3 h4 (hpos _) (hpos _) (hpos _) (hpos _)] at e
  cases e
  exact ⟨_, rfl, fun f hf => rect_val hx hy hnx hny hw hdy _ _ _ _ f hf⟩

theorem markerOf_side {x y : Nat → K} {d : Nat → Nat → Bool} (hnx : 1 ≤ nx) (hny : 1 ≤ ny) {tag : Side → Int}
    {pm : RFacet K → Int} (hpm : ∀ f, IsRect nx ny f →
      pm f = rectTag nx ny (tag .left) (tag .right) (tag .bottom) (tag .top) f) {F : Int} {sd : Side}
    (h : OnSide nx ny F sd) : markerOf x y d nx ny pm F = tag sd := by
  unfold markerOf
  cases sd <;> obtain ⟨a, ha, rfl⟩ := h
  · rw [facetOf_v (by omega) ha, Option.map_some, Option.getD_some, hpm (.v 0 a) ⟨by omega, ha⟩]
    simp [rectTag]
  · rw [facetOf_v (by omega) ha, Option.map_some, Option.getD_some, hpm (.v nx a) ⟨by omega, ha⟩]
    simp only [rectTag, if_true]
    rw [if_neg (by omega)]
  · rw [facetOf_h ha (by omega), Option.map_some, Option.getD_some, hpm (.h a 0) ⟨ha, by omega⟩]
    simp [rectTag]
  · rw [facetOf_h ha (by omega), Option.map_some, Option.getD_some, hpm (.h a ny) ⟨ha, by omega⟩]
    simp only [rectTag, if_true]
    rw [if_neg (by omega)]

theorem markerOf_other {x y : Nat → K} {d : Nat → Nat → Bool} {t1 t2 t3 t4 : Int}
    {pm : RFacet K → Int} (hpm : ∀ f, IsRect nx ny f → pm f = rectTag nx ny t1 t2 t3 t4 f) {F : Int}
    (h : ∀ sd, ¬ OnSide nx ny F sd) : markerOf x y d nx ny pm F = 0 := by
  unfold markerOf
  cases hf : facetOf x y d nx ny F with
  | none => rfl
  | some f =>
    rw [Option.map_some, Option.getD_some]
    rcases facetOf_inv hf with ⟨i, j, hi, hj, rfl, rfl⟩ | ⟨i, j, hi, hj, rfl, rfl⟩ | ⟨a, b, rfl⟩
    · rw [hpm (.h i j) ⟨hi, hj⟩]
      simp only [rectTag]
      rw [if_neg, if_neg]
      · rintro rfl; exact h .top ⟨i, hi, rfl⟩
      · rintro rfl; exact h .bottom ⟨i, hi, rfl⟩
    · rw [hpm (.v i j) ⟨hi, hj⟩]
      simp only [rectTag]
      rw [if_neg, if_neg]
      · rintro rfl; exact h .right ⟨j, hj, rfl⟩
      · rintro rfl; exact h .left ⟨j, hj, rfl⟩
    · rw [hpm (.inner a b) trivial]; rfl

/-- C85.  A rectangle mesh made with a dictionary of particle boundaries, and callbacks named after the
sides: the mesh is conforming for every number of cells and every choice of diagonals, its points are
those of the rectangle; at every outer facet the particles of a species meet the most specific of the
callbacks for the side the facet is on, and no callback in between. -/
theorem C85_named_walls (hx : xmin < xmax) (hy : ymin < ymax) (hnx : 1 ≤ nx) (hny : 1 ≤ ny) {pd : Dict}
    (hg : GoodTags pd) (hsides : ∀ sd : Side, ∃ t, (sd.name, t) ∈ pd)
    (hw : (1 / 10 ^ 10 : K) ≤ xmax - xmin) (hdy : (1 / 10 ^ 10 : K) ≤ (ymax - ymin) / ny) {ms : Marks (RFacet K)}
    (e : createXY xmin xmax ymin ymax nx ny none (some pd) none = .ok ms)
    {cb : Callbacks (τ × BCall K 2 2 ρ → Except Err (τ × Part K 2 ρ))} {species : List String} {sn : String}
    (hs : sn ∈ species) {f : Side → τ × BCall K 2 2 ρ → Except Err (τ × Part K 2 ρ)} {m : Side → Bool}
    (hp : ∀ sd, Provided cb sd.name sn (f sd)) (ha : ∀ sd, ActsLike (m sd) (f sd)) (d : Nat → Nat → Bool) :
    ∃ pm, ms.particle = some pm ∧
      (boxMesh xmin xmax ymin ymax nx ny d pm).Conforming ∧
      (∀ q, (boxMesh xmin xmax ymin ymax nx ny d pm).Points q ↔ inBounds xmin xmax ymin ymax q = true) ∧
      Walled (boxMesh xmin xmax ymin ymax nx ny d pm) (walls xmin xmax ymin ymax m) (sideOf nx) ∧
      (∀ F n, (boxMesh xmin xmax ymin ymax nx ny d pm).Boundary F n → ∀ st call,
        namedBC cb pd species sn ((boxMesh xmin xmax ymin ymax nx ny d pm).marker F) st call =
          f (sideOf nx F) (st, call)) ∧
      (∀ F, (∀ n, ¬ (boxMesh xmin xmax ymin ymax nx ny d pm).Boundary F n) →
        (boxMesh xmin xmax ymin ymax nx ny d pm).marker F = 0) ∧
      BilliardBC (boxMesh xmin xmax ymin ymax nx ny d pm) (walls xmin xmax ymin ymax m) (sideOf nx)
        (namedBC cb pd species sn) := by
  choose tag htag using hsides
  have hpos : ∀ sd, 0 < tag sd := fun sd => hg.pos _ (htag sd)
  obtain ⟨pm, hpm, hv⟩ := rect_particle hx hy hnx hny hg.keys htag (fun sd => (hpos sd).le) hw hdy e
  have gx : ∀ i, i < nx → gridPoint xmin xmax nx i < gridPoint xmin xmax nx (i + 1) := fun i _ => gridPoint_lt hx hnx i
  have gy : ∀ i, i < ny → gridPoint ymin ymax ny i < gridPoint ymin ymax ny (i + 1) := fun i _ => gridPoint_lt hy hny i
  have mside : ∀ {F sd}, OnSide nx ny F sd → (boxMesh xmin xmax ymin ymax nx ny d pm).marker F = tag sd :=
    fun h => markerOf_side hnx hny hv h
  have mother : ∀ F, (∀ n, ¬ (boxMesh xmin xmax ymin ymax nx ny d pm).Boundary F n) →
      (boxMesh xmin xmax ymin ymax nx ny d pm).marker F = 0 := by
    intro F hF
    refine markerOf_other hv fun sd hsd => ?_
    obtain ⟨n, hn⟩ := boundary_of (x := gridPoint xmin xmax nx) (y := gridPoint ymin ymax ny) (d := d)
      (marker := (boxMesh xmin xmax ymin ymax nx ny d pm).marker) hnx hny hsd
    exact hF n hn
  have hsm : SidesMarked nx ny (boxMesh xmin xmax ymin ymax nx ny d pm).marker := by
    refine ⟨fun j hj => ?_, fun j hj => ?_, fun j hj => ?_, fun j hj => ?_⟩
    · rw [mside (sd := .left) ⟨j, hj, rfl⟩]; exact (hpos _).ne'
    · rw [mside (sd := .right) ⟨j, hj, rfl⟩]; exact (hpos _).ne'
    · rw [mside (sd := .bottom) ⟨j, hj, rfl⟩]; exact (hpos _).ne'
    · rw [mside (sd := .top) ⟨j, hj, rfl⟩]; exact (hpos _).ne'
  have hcall : ∀ F n, (boxMesh xmin xmax ymin ymax nx ny d pm).Boundary F n → ∀ st call,
        namedBC cb pd species sn ((boxMesh xmin xmax ymin ymax nx ny d pm).marker F) st call =
          f (sideOf nx F) (st, call) := by
    intro F n hB st call
    obtain ⟨sd, h1, -⟩ := boundary_inv hB
    rw [mside h1, sideOf_of hnx hny h1]
    exact provided_call hs (tagOf_of hg.inj (htag sd)) (hp sd) _
  have hwl := walled (d := d) hnx hny gx gy (boxMesh xmin xmax ymin ymax nx ny d pm).marker m
  have hpt := points (d := d) hnx hny gx gy (boxMesh xmin xmax ymin ymax nx ny d pm).marker
  rw [gridPoint_zero, gridPoint_zero, gridPoint_last _ _ hnx, gridPoint_last _ _ hny] at hwl
  simp only [inRect, gridPoint_zero, gridPoint_last _ _ hnx, gridPoint_last _ _ hny] at hpt
  refine ⟨pm, hpm, conforming gx gy hsm, hpt, hwl, hcall, mother, ?_, ?_, ?_⟩
  · intro F n hB st call _
    rw [hcall F n hB, walls_mirror]
    exact ha (sideOf nx F) st call
  · intro F hF st call _
    right
    refine ⟨mother F hF, .key, ?_⟩
    rw [mother F hF]
    have : invName pd 0 = none := invName_none (fun e he => (hg.pos e he).ne')
    simp [namedBC, callBC, bcDict, this]
  · intro F n hB
    obtain ⟨sd, h1, -⟩ := boundary_inv hB
    exact not_interior h1

/-- A particle in the rectangle, with the walls `m`: the results of C85 for one step of the charged mover. -/
structure BoxStep (xmin xmax ymin ymax : K) (m : Side → Bool) (x : Vec K 2) (k k' : Vec K 2 × Vec K 2 × ρ)
    (lost : Bool) : Prop where
  /-- the particle moves like a billiard ball -/
  billiard : Billiard (fun q => inBounds xmin xmax ymin ymax q = true) (walls xmin xmax ymin ymax m) x k k' lost
  /-- speed and other attributes stay as they are -/
  speed : k'.2.1 0 ^ 2 = k.2.1 0 ^ 2 ∧ k'.2.1 1 ^ 2 = k.2.1 1 ^ 2 ∧ k'.2.2 = k.2.2
  /-- a particle that is not lost is in the rectangle -/
  inside : lost = false → inBounds xmin xmax ymin ymax k'.1 = true
  /-- four mirrors: no particle is lost -/
  mirrors : (∀ sd, m sd = true) → lost = false
  /-- four holes: nothing happens to the particle, it is lost if it is outside -/
  holes : (∀ sd, m sd = false) → k' = k ∧ lost = !inBounds xmin xmax ymin ymax k.1
  /-- a symmetry plane on the left and at the bottom, holes on the right and on top -/
  quarter : m .left = true → m .bottom = true → m .right = false → m .top = false →
    (lost = false → along 0 k' = folded xmin (along 0 k) ∧ along 1 k' = folded ymin (along 1 k)) ∧
    (lost = true ↔ xmax < (folded xmin (along 0 k)).1 0 ∨ ymax < (folded ymin (along 1 k)).1 0)

theorem BoxStep.of (hx : xmin ≤ xmax) (hy : ymin ≤ ymax) {m : Side → Bool} {x : Vec K 2}
    {k k' : Vec K 2 × Vec K 2 × ρ} {lost : Bool}
    (h : Billiard (fun q => inBounds xmin xmax ymin ymax q = true) (walls xmin xmax ymin ymax m) x k k' lost) :
    BoxStep xmin xmax ymin ymax m x k k' lost := by
  obtain ⟨-, hrest, hin, hmir⟩ := C84_energy (walls_unit _ _ _ _ _) h
  obtain ⟨c1, c2⟩ := C85_coordinates h
  refine ⟨h, ?_, hin, fun hm => hmir fun w => by rw [walls_mirror]; exact hm w, ?_, ?_⟩
  · have key : ∀ (n a u : Vec K 2) (x : Vec K 2) (r : ρ), (n = ![-1, 0] ∨ n = ![1, 0] ∨ n = ![0, -1] ∨ n = ![0, 1]) →
        (imaged n a (x, u, r)).2.1 0 ^ 2 = u 0 ^ 2 ∧ (imaged n a (x, u, r)).2.1 1 ^ 2 = u 1 ^ 2 := by
      intro n a u x r hn
      rcases hn with rfl | rfl | rfl | rfl <;>
        simp only [imaged, dotP, Pi.sub_apply, Pi.smul_apply, smul_eq_mul, Matrix.cons_val_zero,
          Matrix.cons_val_one] <;> constructor <;> ring
    refine ⟨?_, ?_, hrest⟩
    all_goals
      clear c1 c2 hrest hin hmir
      induction h with
      | stays => rfl
      | @bounce a k k' lost w t _ _ _ _ _ _ _ ih =>
        rw [ih]
        have := key (walls xmin xmax ymin ymax m w).n (wayPoint a k.1 t) k.2.1 k.1 k.2.2 (by cases w <;> simp [walls])
        first | exact this.1 | exact this.2
      | lost => rfl
  · intro hm
    cases h with
    | stays h =>
      have := hin rfl
      exact ⟨rfl, by rw [this]; rfl⟩
    | bounce w t _ _ _ _ _ hw => rw [walls_mirror, hm] at hw; cases hw
    | lost w t h0 h1 _ hon out _ =>
      refine ⟨rfl, ?_⟩
      have : inBounds xmin xmax ymin ymax k.1 = false := by
        rw [Bool.eq_false_iff]
        intro hb
        simp only [inBounds, decide_eq_true_eq] at hb
        obtain ⟨b1, b2, b3, b4⟩ := hb
        cases w
        · have hz : x 0 + t * (k.1 0 - x 0) = xmin := hon
          simp [walls, dotP] at out
          nlinarith [mul_pos (sub_pos.2 h1) (sub_pos.2 out)]
        · have hz : x 0 + t * (k.1 0 - x 0) = xmax := hon
          simp [walls, dotP] at out
          nlinarith [mul_pos (sub_pos.2 h1) (sub_pos.2 out)]
        · have hz : x 1 + t * (k.1 1 - x 1) = ymin := hon
          simp [walls, dotP] at out
          nlinarith [mul_pos (sub_pos.2 h1) (sub_pos.2 out)]
        · have hz : x 1 + t * (k.1 1 - x 1) = ymax := hon
          simp [walls, dotP] at out
          nlinarith [mul_pos (sub_pos.2 h1) (sub_pos.2 out)]
      rw [this]; rfl
  · intro hl hb hr ht
    rw [hl, hr, hb, ht] at c1 c2
    refine ⟨fun h0 => ?_, ?_⟩
    · obtain ⟨e1, e2⟩ := c1 h0
      exact ⟨(bounces_folded hx e1).1, (bounces_folded hy e2).1⟩
    · constructor
      · intro h0
        rcases c2 h0 with e1 | e1
        · have := (bounces_folded hx e1).2
          left; simpa using this
        · have := (bounces_folded hy e1).2
          right; simpa using this
      · intro h0
        cases lost with
        | true => rfl
        | false =>
          exfalso
          obtain ⟨e1, e2⟩ := c1 rfl
          have f1 := (bounces_folded hx e1).2
          have f2 := (bounces_folded hy e2).2
          simp at f1 f2
          rcases h0 with h0 | h0 <;> linarith

/-- C85 (one particle).  A particle on a rectangle mesh made with named boundaries: a step of the charged
mover is a leapfrog step of a billiard ball in the rectangle whose sides have the properties of the named
callbacks.  Numbers of cells and diagonals do not matter. -/
theorem C85_particle (hx : xmin < xmax) (hy : ymin < ymax) (hnx : 1 ≤ nx) (hny : 1 ≤ ny) {pd : Dict}
    (hg : GoodTags pd) (hsides : ∀ sd : Side, ∃ t, (sd.name, t) ∈ pd)
    (hw : (1 / 10 ^ 10 : K) ≤ xmax - xmin) (hdy : (1 / 10 ^ 10 : K) ≤ (ymax - ymin) / ny) {ms : Marks (RFacet K)}
    (e : createXY xmin xmax ymin ymax nx ny none (some pd) none = .ok ms)
    {cb : Callbacks (τ × BCall K 2 2 ρ → Except Err (τ × Part K 2 ρ))} {species : List String} {sn : String}
    (hs : sn ∈ species) {f : Side → τ × BCall K 2 2 ρ → Except Err (τ × Part K 2 ρ)} {m : Side → Bool}
    (hp : ∀ sd, Provided cb sd.name sn (f sd)) (ha : ∀ sd, ActsLike (m sd) (f sd)) (d : Nat → Nat → Bool) :
    ∃ pm, ms.particle = some pm ∧ ∀ {n : Nat} {time dt qom : K} {E : Part K 2 ρ → Option (Vec K 2)}
      {st : τ × Vec K 2} {q : Part K 2 ρ}, Present (le_refl 2) (boxMesh xmin xmax ymin ymax nx ny d pm) q →
      (∀ {st' q' evs}, moveCharged (le_refl 2) (boxMesh xmin xmax ymin ymax nx ny d pm) .charged
          (namedBC cb pd species sn) n time dt (qom * dt) false E st q = .ok (st', q', evs) →
        BoxStep xmin xmax ymin ymax m q.x (leap dt qom (E q) (kin q)) (kin q') q'.del) ∧
      (∀ {er}, moveCharged (le_refl 2) (boxMesh xmin xmax ymin ymax nx ny d pm) .charged
          (namedBC cb pd species sn) n time dt (qom * dt) false E st q = .error er → er = .tooMany) := by
  obtain ⟨pm, hpm, hM, hpt, hwl, -, -, hb⟩ := C85_named_walls hx hy hnx hny hg hsides hw hdy e hs hp ha d
  refine ⟨pm, hpm, fun {n time dt qom E st q} hq => ⟨fun em => ?_, fun {er} em => ?_⟩⟩
  · have := C84_particle hM rfl rfl hwl hb hq em
    rw [show (boxMesh xmin xmax ymin ymax nx ny d pm).Points = fun q => inBounds xmin xmax ymin ymax q = true from
      funext fun q => propext (hpt q)] at this
    exact BoxStep.of hx.le hy.le this
  · rcases C84_no_error (v := .charged) hM rfl rfl hwl hb n time dt (qom * dt) E st hq with ⟨r, hr⟩ | hr
    · rw [hr] at em; cases em
    · rw [hr] at em; cases em; rfl

/-! ### A whole simulation -/

/-- A callback that succeeds wherever another one does, with the same result, leads to the same end. -/
theorem track_mono {g p : Nat} {h : g ≤ p} {M : Mesh K g} {v : Variant}
    {bc bc' : Int → τ → BCall K g p ρ → Except Err (τ × Part K p ρ)}
    (hb : ∀ value st call r, bc value st call = .ok r → bc' value st call = .ok r) :
    ∀ {n : Nat} {s s' : Trk K p τ ρ}, track h M v bc n s = .ok s' → track h M v bc' n s = .ok s' := by
  have marked : ∀ {value f n F} {s : Trk K p τ ρ} {r}, atMarked v bc value f n F s = .ok r →
      atMarked v bc' value f n F s = .ok r := by
    intro value f n F s r e
    unfold atMarked at e ⊢
    cases h1 : crossEvents v s with
    | error er => rw [h1] at e; cases e
    | ok evs =>
      rw [h1] at e
      simp only [bind, Except.bind] at e ⊢
      cases h2 : bc value s.st ⟨s.part, F, f, n, s.dxS⟩ with
      | error er => rw [h2] at e; cases e
      | ok t => rw [h2] at e; rw [hb _ _ _ _ h2]; exact e
  have one : ∀ {s : Trk K p τ ρ} {r}, crossOnce h M v bc s = .ok r → crossOnce h M v bc' s = .ok r := by
    intro s r e
    unfold crossOnce at e ⊢
    dsimp only at e ⊢
    cases h1 : M.findFacet (proj h s.part.x0) (proj h (s.part.x - s.part.x0)) s.cell with
    | error er => rw [h1] at e; cases e
    | ok t =>
      rw [h1] at e
      simp only [bind, Except.bind] at e ⊢
      split at e
      · cases e
      · rename_i hc
        rw [if_neg hc]
        cases h2 : M.lookup s.cell with
        | error er => rw [h2] at e; cases e
        | ok c =>
          rw [h2] at e
          simp only at e ⊢
          cases h3 : pyGet c.facets t.1 with
          | error er => rw [h3] at e; cases e
          | ok F =>
            rw [h3] at e
            simp only at e ⊢
            split at e
            · cases e
            · rename_i hl
              rw [if_neg hl]
              by_cases hm : M.marker F = 0
              · simp only [hm, ne_eq, not_true, if_false] at e ⊢
                exact e
              · rw [if_pos hm] at e ⊢
                split at e
                · cases e
                · rename_i s2 hs2
                  rw [marked hs2]
                  exact e
  intro n
  induction n with
  | zero =>
    intro s s' e
    unfold track at e ⊢
    exact e
  | succ n ih =>
    intro s s' e
    unfold track at e ⊢
    cases hi : M.isInside (proj h s.part.x) s.cell with
    | error er => rw [hi] at e; cases e
    | ok b =>
      rw [hi] at e
      cases b with
      | true => exact e
      | false =>
        simp only [bind, Except.bind, Bool.false_eq_true, if_false] at e ⊢
        cases hc : crossOnce h M v bc s with
        | error er => rw [hc] at e; cases e
        | ok r =>
          rw [hc] at e
          rw [one hc]
          simp only at e ⊢
          split at e
          · rename_i hb; rw [if_pos hb]; exact e
          · rename_i hb; rw [if_neg hb]; exact ih e

theorem moveCharged_mono {g p : Nat} {h : g ≤ p} {M : Mesh K g} {v : Variant}
    {bc bc' : Int → τ → BCall K g p ρ → Except Err (τ × Part K p ρ)}
    (hb : ∀ value st call r, bc value st call = .ok r → bc' value st call = .ok r) {n : Nat} {time dt qmdt : K}
    {E : Part K p ρ → Option (Vec K p)} {st : τ × Vec K p} {q : Part K p ρ} {r}
    (e : moveCharged h M v bc n time dt qmdt false E st q = .ok r) :
    moveCharged h M v bc' n time dt qmdt false E st q = .ok r := by
  unfold moveCharged at e ⊢
  simp only [Bool.false_eq_true, if_false, bind, Except.bind] at e ⊢
  split at e
  · cases e
  · rename_i s hs
    rw [track_mono hb hs]
    exact e

/-- No callback touches the cell index. -/
theorem namedBC_keepsCell {g p : Nat} {cb : Callbacks (τ × BCall K g p ρ → Except Err (τ × Part K p ρ))}
    (h : ∀ name f, cb name = some f → ∀ a st' q', f a = .ok (st', q') → q'.cell = a.2.part.cell) (pd : Dict)
    (species : List String) (sn : String) : KeepsCell (namedBC cb pd species sn) := by
  intro value st call st' q' e
  unfold namedBC callBC bcDict at e
  split at e
  · cases e
  · cases e
  · rename_i f hf
    split at hf
    · cases hf
    · split at hf
      · rw [Option.some.injEq] at hf
        unfold chooseBC at hf
        dsimp only at hf
        split at hf
        · cases hf; exact h _ _ (by assumption) _ _ _ e
        · split at hf
          · cases hf; exact h _ _ (by assumption) _ _ _ e
          · split at hf
            · cases hf; exact h _ _ (by assumption) _ _ _ e
            · cases hf
      · cases hf

open TimeLoop in
open Spec (LState Stores Pop Ideal Fault lastOf) in
/-- C85 (a whole simulation).  A rectangle made with named boundaries all of whose callbacks delete the
particles (and may count or tally them): from each step to the next the particles make leapfrog steps,
those outside the rectangle are dropped.  Nothing else depends on the numbers of cells, the diagonals,
the tags, or which of the three kinds of names the callbacks have. -/
theorem C85_run {V φ : Type} (hx : xmin < xmax) (hy : ymin < ymax) (hnx : 1 ≤ nx) (hny : 1 ≤ ny) {pd : Dict}
    (hg : GoodTags pd) (hsides : ∀ sd : Rect.Side, ∃ t, (sd.name, t) ∈ pd)
    (hw : (1 / 10 ^ 10 : K) ≤ xmax - xmin) (hdy : (1 / 10 ^ 10 : K) ≤ (ymax - ymin) / ny) {ms : Marks (RFacet K)}
    (e : createXY xmin xmax ymin ymax nx ny none (some pd) none = .ok ms)
    {cb : Callbacks (τ × BCall K 2 2 ρ → Except Err (τ × Part K 2 ρ))} {species : List String}
    {f : String → Rect.Side → τ × BCall K 2 2 ρ → Except Err (τ × Part K 2 ρ)}
    (hp : ∀ sn ∈ species, ∀ sd : Rect.Side, Provided cb sd.name sn (f sn sd))
    (ha : ∀ sn ∈ species, ∀ sd, ActsLike false (f sn sd))
    (hcell : ∀ name f, cb name = some f → ∀ a st' q', f a = .ok (st', q') → q'.cell = a.2.part.cell)
    (d : Nat → Nat → Bool) :
    ∃ pm, ms.particle = some pm ∧
      ∀ {maxCross : Nat} {qom : String → K} {E : String → φ → Part K 2 ρ → Option (Vec K 2)}
        {cfg : Cfg K V (Part K 2 ρ) (τ × Vec K 2) φ},
        cfg.move = pyMove (le_refl 2) (boxMesh xmin xmax ymin ymax nx ny d pm) (namedBC cb pd species) maxCross cfg.dt qom E →
        SourcesPresent (le_refl 2) (boxMesh xmin xmax ymin ymax nx ny d pm) cfg.sources →
        ∀ {onMesh : Part K 2 ρ → Bool} {dd : Nat → Nat} {sl D C : Nat}, GoodCfg cfg → GoodMesh cfg onMesh dd D C →
        ∀ {z : Species.HRow K} (n : Nat) {init : Option (List (String × List (Part K 2 ρ)))},
        InitPresent (le_refl 2) (boxMesh xmin xmax ymin ymax nx ny d pm) init →
        ∀ {st : State K V (Part K 2 ρ) (τ × Vec K 2) φ} {i : Ideal K V (Part K 2 ρ) (τ × Vec K 2)} {b : List K},
        Fresh sl D C n z st i b → (i.pops.map (·.name)).Nodup → (st.writer = none → cfg.partEvery = none) →
        ∀ {i0 : Ideal K V (Part K 2 ρ) (τ × Vec K 2)} {is : List (Ideal K V (Part K 2 ρ) (τ × Vec K 2))},
        Ideal.run cfg sl D onMesh init b n i = .ok (i0, is) →
        (i0 :: is).IsChain (LeapStep (le_refl 2) (inBounds xmin xmax ymin ymax) qom E cfg sl D) ∧
        ∃ st', run cfg init n st = .ok st' ∧ Outcome cfg dd C init.isSome b st st' i0 is := by
  choose tag htag using hsides
  have hpos : ∀ sd, 0 < tag sd := fun sd => hg.pos _ (htag sd)
  obtain ⟨pm, hpm, -⟩ := rect_particle hx hy hnx hny hg.keys htag (fun sd => (hpos sd).le) hw hdy e
  refine ⟨pm, hpm, ?_⟩
  intro maxCross qom E cfg hmove hsrc onMesh dd sl D C hc hm z n init hinit st i b hf hn hnone i0 is hr
  have part : ∀ sn fld time st q st' q' evs, Present (le_refl 2) (boxMesh xmin xmax ymin ymax nx ny d pm) q →
      moveCharged (le_refl 2) (boxMesh xmin xmax ymin ymax nx ny d pm) .charged (namedBC cb pd species sn) maxCross
        time cfg.dt (qom sn * cfg.dt) false (E sn fld) st q = .ok (st', q', evs) →
      kin q' = leap cfg.dt (qom sn) (E sn fld q) (kin q) ∧
        q'.del = !(inBounds xmin xmax ymin ymax (proj (le_refl 2) q'.x)) := by
    intro sn fld time st q st' q' evs hq em
    have fin : ∀ {cb' : Callbacks (τ × BCall K 2 2 ρ → Except Err (τ × Part K 2 ρ))} {species' : List String}
        {f' : Rect.Side → τ × BCall K 2 2 ρ → Except Err (τ × Part K 2 ρ)}, sn ∈ species' →
        (∀ sd : Rect.Side, Provided cb' sd.name sn (f' sd)) → (∀ sd, ActsLike false (f' sd)) →
        moveCharged (le_refl 2) (boxMesh xmin xmax ymin ymax nx ny d pm) .charged (namedBC cb' pd species' sn)
          maxCross time cfg.dt (qom sn * cfg.dt) false (E sn fld) st q = .ok (st', q', evs) →
        kin q' = leap cfg.dt (qom sn) (E sn fld q) (kin q) ∧
          q'.del = !(inBounds xmin xmax ymin ymax (proj (le_refl 2) q'.x)) := by
      intro cb' species' f' hs' hp' ha' em'
      obtain ⟨pm', hpm', hres⟩ := C85_particle (m := fun _ => false) hx hy hnx hny hg (fun sd => ⟨tag sd, htag sd⟩)
        hw hdy e hs' hp' ha' d
      rw [hpm] at hpm'
      cases hpm'
      obtain ⟨h1, h2⟩ := ((hres hq).1 em').holes (fun _ => rfl)
      refine ⟨h1, ?_⟩
      rw [h2, ← h1]; rfl
    by_cases hs : sn ∈ species
    · exact fin hs (hp sn hs) (ha sn hs) em
    · -- no callback for this species: it has met no marked facet
      refine fin (cb' := fun name => if name = "default_bc" then some (fun a => bcAbsorb a.1 a.2) else none)
        (species' := [sn]) (f' := fun _ a => bcAbsorb a.1 a.2) (by simp) ?_ (fun _ st call => ⟨st, rfl⟩)
        (moveCharged_mono ?_ em)
      · intro sd
        refine .inr (.inr ⟨?_, ?_, by simp⟩)
        · cases sd <;> simp [Rect.Side.name, String.ext_iff]
        · cases sd <;> simp [Rect.Side.name, String.ext_iff]
      · intro value st call r er
        exfalso
        unfold namedBC callBC bcDict at er
        simp only [if_neg hs] at er
        split at er
        · cases er
        · rename_i hh; split at hh <;> cases hh
        · rename_i hh; split at hh <;> cases hh
  exact motion_run (motion := fun sn f q => leap cfg.dt (qom sn) (E sn f q) (kin q))
    (keep := fun x => inBounds xmin xmax ymin ymax (proj (le_refl 2) x)) part
    (fun sn => namedBC_keepsCell hcell pd species sn) hmove hsrc hc hm n hinit hf hn hnone hr

end

/-! ### The hypotheses are met -/

/-- Reflect at `xmin` and `ymin`; by default, delete. -/
def boxCB : Callbacks (Unit × BCall ℚ 2 2 Nat → Except Err (Unit × Part ℚ 2 Nat)) := fun s =>
  if s = "bc_at_xmin_for_H" ∨ s = "default_bc_at_ymin" then some (fun a => bcReflect a.1 a.2)
  else if s = "default_bc" then some (fun a => bcAbsorb a.1 a.2) else none

def boxDict : Dict := [("xmin", 1), ("xmax", 2), ("ymin", 4), ("ymax", 8)]

example : GoodTags boxDict := ⟨by unfold IsDict; decide, by decide, by decide⟩

example (sd : Rect.Side) : ∃ t, (sd.name, t) ∈ boxDict := by
  cases sd
  · exact ⟨1, by decide⟩
  · exact ⟨2, by decide⟩
  · exact ⟨4, by decide⟩
  · exact ⟨8, by decide⟩

/-- The sides that are mirrors for species `H`. -/
def boxMirror : Rect.Side → Bool
  | .left => true
  | .bottom => true
  | _ => false

example : ∀ sd : Rect.Side, Provided boxCB sd.name "H"
    (fun a => if boxMirror sd then bcReflect a.1 a.2 else bcAbsorb a.1 a.2) := by
  intro sd
  cases sd
  · exact .inl rfl
  · exact .inr (.inr ⟨rfl, rfl, rfl⟩)
  · exact .inr (.inl ⟨rfl, rfl⟩)
  · exact .inr (.inr ⟨rfl, rfl, rfl⟩)

example : ∀ sd : Rect.Side, ActsLike (boxMirror sd)
    (fun a : Unit × BCall ℚ 2 2 Nat => if boxMirror sd then bcReflect a.1 a.2 else bcAbsorb a.1 a.2) :=
  fun _ st _ => ⟨st, rfl⟩

/-- A step of a particle on the rectangle from (0, 0) to (3, 2) with 3 times 2 boxes, diagonals like a
chess board: position, velocity, lost. -/
def boxStep (cb : Callbacks (Unit × BCall ℚ 2 2 Nat → Except Err (Unit × Part ℚ 2 Nat))) (sn : String)
    (x u : ℚ × ℚ) (cell : Int) : Err ⊕ Option (ℚ × ℚ × ℚ × ℚ × Bool) :=
  match createXY (K := ℚ) 0 3 0 2 3 2 none (some boxDict) none with
  | .error e => .inl e
  | .ok ms => match ms.particle with
    | none => .inr none
    | some pm => match moveCharged (le_refl 2) (boxMesh 0 3 0 2 3 2 (fun i j => (i + j) % 2 == 0) pm) .charged
        (namedBC cb boxDict ["H", "He"] sn) 100 1 1 1 false (fun _ => none) ((), ![0, 0])
        ⟨![x.1, x.2], ![x.1, x.2], ![u.1, u.2], cell, false, false, 0, 7⟩ with
      | .error e => .inl e
      | .ok a => .inr (some (a.2.1.x 0, a.2.1.x 1, a.2.1.u 0, a.2.1.u 1, a.2.1.del))

-- reflected at two sides; at one; lost at the left; lost at the top; lost on the right after a reflection
example : boxStep boxCB "H" (1 / 2, 1 / 4) (-1, -1) 0 = .inr (some (1 / 2, 3 / 4, 1, 1, false)) := by decide +kernel
example : boxStep boxCB "H" (1 / 2, 1 / 4) (-1, 1) 0 = .inr (some (1 / 2, 5 / 4, 1, 1, false)) := by decide +kernel
example : boxStep boxCB "He" (1 / 2, 1 / 4) (-1, -1) 0 = .inr (some (-1 / 2, 3 / 4, -1, 1, true)) := by decide +kernel
example : boxStep boxCB "H" (1 / 2, 1 / 4) (1, 9) 0 = .inr (some (3 / 2, 37 / 4, 1, 9, true)) := by decide +kernel
example : boxStep boxCB "H" (1 / 2, 1 / 4) (-5, 0) 0 = .inr (some (9 / 2, 1 / 4, 5, 0, true)) := by decide +kernel

example : InItsCell (le_refl 2) (boxMesh (0 : ℚ) 3 0 2 3 2 (fun i j => (i + j) % 2 == 0) (fun _ => 0))
    (⟨![1 / 2, 1 / 4], ![1 / 2, 1 / 4], ![-1, -1], 0, false, false, 0, 7⟩ : Part ℚ 2 Nat) := by
  unfold InItsCell; decide +kernel

/-- C85 is false, as far as running without errors is concerned, between mirrors: a fast particle exceeds
the limit on crossings. -/
theorem C85_false_fast : boxStep (fun s => if s = "default_bc" then some (fun a => bcReflect a.1 a.2) else none)
    "H" (1 / 2, 1 / 4) (1000, 0) 0 = .inl .tooMany := by decide +kernel

/-- C84 is false for neutral species and mirrors: the callbacks of the neutral mover do not see the current
move, the particle is not mirrored and the run stops with a NameError. -/
theorem C84_false_neutral : (match createXY (K := ℚ) 0 3 0 2 3 2 none (some boxDict) none with
  | .error e => (.inl e : Err ⊕ Bool)
  | .ok ms => match ms.particle with
    | none => .inr false
    | some pm => match moveNeutral (le_refl 2) (boxMesh 0 3 0 2 3 2 (fun i j => (i + j) % 2 == 0) pm) .neutral
        (namedBC boxCB boxDict ["H", "He"] "H") 100 1 1 ((), ![0, 0])
        ⟨![1 / 2, 1 / 4], ![1 / 2, 1 / 4], ![-1, 1], 0, false, false, 0, 7⟩ with
      | .error e => .inl e
      | .ok _ => .inr true) = .inl .name := by decide +kernel

end Dt
