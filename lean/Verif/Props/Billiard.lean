import Verif.Props.Wall
import Verif.Lemmas.Billiard
import Verif.Lemmas.RectMesh

/-!
# Mirrors and holes on any mesh (C84), and on a rectangle (C85)
-/

set_option linter.unusedSectionVars false

namespace Dt
variable {K : Type} [Field K] [LinearOrder K] [IsStrictOrderedRing K] {g : Nat} {τ ρ ι : Type}

section
variable {M : Mesh K g} {walls : ι → Wall K g} {wallOf : Int → ι}
  {bc : Int → τ → BCall K g g ρ → Except Err (τ × Part K g ρ)}

/-- C84 (one particle).  On a mesh in any number of dimensions, of a domain that need not be convex,
whose boundary facets reflect or delete: a particle that is present and whose move succeeds makes a
leapfrog step like a billiard ball.  It goes straight through the domain up to the first point where the
way leaves it, there its motion is mirrored in the wall or it is lost, and so on. -/
theorem C84_particle (hM : M.Conforming) {v : Variant} (hv : v.sharesDx = true) (hd : v.datum = .ok ())
    (hw : Walled M walls wallOf) (hb : BilliardBC M walls wallOf bc) {n : Nat} {time dt qom : K}
    {E : Part K g ρ → Option (Vec K g)} {st st' : τ × Vec K g} {q q' : Part K g ρ}
    {evs : List (Part K g ρ × K)} (hq : Present (le_refl g) M q)
    (e : moveCharged (le_refl g) M v bc n time dt (qom * dt) false E st q = .ok (st', q', evs)) :
    Billiard M.Points walls q.x (leap dt qom (E q) (kin q)) (kin q') q'.del := by
  unfold moveCharged at e
  simp only [Bool.false_eq_true, if_false] at e
  change (do
    let s ← track (le_refl g) M v bc n (startTrk time dt st.1 st.2 (movedPart dt (qom * dt) E q))
    _) = _ at e
  cases ht : track (le_refl g) M v bc n (startTrk time dt st.1 st.2 (movedPart dt (qom * dt) E q)) with
  | error e' => rw [ht] at e; cases e
  | ok s =>
    rw [ht] at e
    simp only [bind, Except.bind, pure, Except.pure, Except.ok.injEq, Prod.mk.injEq] at e
    obtain ⟨-, rfl, -⟩ := e
    have hdel : (movedPart dt (qom * dt) E q).del = false := by
      unfold movedPart moveBy accelerate
      cases E q <;> exact hq.2
    have := billiard_track hM (.inl hv) hd hw hb n (moved_sound hM time dt _ E _ _ hq.1) hdel ht
    rw [← kin_moved]
    have hx0 : (startTrk time dt st.1 st.2 (movedPart dt (qom * dt) E q)).part.x0 = q.x := by
      simp only [startTrk]
      unfold movedPart moveBy accelerate
      cases E q <;> rfl
    rw [hx0] at this
    exact this

/-- C84 (neutral particles): the same with a straight step.  The neutral mover does not pass the current move to the
callbacks (`hv`), so that they can only be used as holes. -/
theorem C84_neutral (hM : M.Conforming) {v : Variant} (hv : v.sharesDx = true ∨ ∀ w, (walls w).mirror = false) (hd : v.datum = .ok ())
    (hw : Walled M walls wallOf) (hb : BilliardBC M walls wallOf bc) {n : Nat} {time dt : K}
    {st st' : τ × Vec K g} {q q' : Part K g ρ} {evs : List (Part K g ρ × K)} (hq : Present (le_refl g) M q)
    (e : moveNeutral (le_refl g) M v bc n time dt st q = .ok (st', q', evs)) :
    Billiard M.Points walls q.x (q.x + dt • q.u, q.u, q.rest) (kin q') q'.del := by
  unfold moveNeutral at e
  cases ht : track (le_refl g) M v bc n (startTrk time dt st.1 st.2 (moveBy dt q)) with
  | error e' => rw [ht] at e; cases e
  | ok s =>
    rw [ht] at e
    simp only [bind, Except.bind, pure, Except.pure, Except.ok.injEq, Prod.mk.injEq] at e
    obtain ⟨-, rfl, -⟩ := e
    obtain ⟨c, hc, hx⟩ := hq.1.get hM
    exact billiard_track hM hv hd hw hb n (s := startTrk time dt st.1 st.2 (moveBy dt q))
      (start_sound hM (c := c) hc hx) hq.2 ht

/-- C84.  Mirrors with unit normals do not change the speed, walls change none of the other attributes;
a particle that is not lost is in the domain at the end; without holes no particle is lost. -/
theorem C84_energy {dom : Vec K g → Prop} (hu : ∀ w, dot (walls w).n (walls w).n = 1) {a : Vec K g}
    {k k' : Vec K g × Vec K g × ρ} {lost : Bool} (h : Billiard dom walls a k k' lost) :
    dot k'.2.1 k'.2.1 = dot k.2.1 k.2.1 ∧ k'.2.2 = k.2.2 ∧ (lost = false → dom k'.1) ∧
    ((∀ w, (walls w).mirror = true) → lost = false) := by
  induction h with
  | @stays a k h =>
    refine ⟨rfl, rfl, fun _ => ?_, fun _ => rfl⟩
    have := h 1 zero_le_one (le_refl _)
    rwa [wayPoint_one] at this
  | @bounce a k k' lost w t _ _ _ _ _ _ _ ih =>
    obtain ⟨h1, h2, h3, h4⟩ := ih
    refine ⟨?_, h2, h3, h4⟩
    rw [h1]
    have hc : dot (imaged (walls w).n (wayPoint a k.1 t) k).2.1 (walls w).n = dot (walls w).n (imaged (walls w).n (wayPoint a k.1 t) k).2.1 :=
      dot_comm _ _
    have h5 : ∀ u : Vec K g, dot (u - (2 * dot (walls w).n u) • (walls w).n) (u - (2 * dot (walls w).n u) • (walls w).n) = dot u u := by
      intro u
      rw [dot_sub, dot_smul, dot_comm _ u, dot_comm _ (walls w).n, dot_sub, dot_sub, dot_smul, dot_smul, hu w,
        dot_comm u (walls w).n]
      ring
    exact h5 k.2.1
  | lost w t _ _ _ _ _ hm => exact ⟨rfl, rfl, (fun h => by cases h), fun hall => by rw [hall w] at hm; cases hm⟩

/-- C84.  The move succeeds or exceeds the limit on crossings. -/
theorem C84_no_error (hM : M.Conforming) {v : Variant} (hv : v.sharesDx = true) (hd : v.datum = .ok ())
    (hw : Walled M walls wallOf) (hb : BilliardBC M walls wallOf bc) (n : Nat) (time dt qmdt : K)
    (E : Part K g ρ → Option (Vec K g)) (st : τ × Vec K g) {q : Part K g ρ} (hq : Present (le_refl g) M q) :
    (∃ r, moveCharged (le_refl g) M v bc n time dt qmdt false E st q = .ok r) ∨
    moveCharged (le_refl g) M v bc n time dt qmdt false E st q = .error (v.err .tooMany) := by
  rcases C28_no_error hM hd (hb.good hw (.inl hv)) n time dt qmdt false E st hq.1 with hr | ⟨hr, -⟩
  · exact .inl hr
  · exact .inr hr

end

/-! ### The rectangle -/

open Rect in
/-- C85 (coordinates).  In a rectangle the two coordinates move independently: if the particle is not
lost, each coordinate is where the motion between two walls (C76) leads; if it is lost, then one of
them is lost between its walls. -/
theorem C85_coordinates {a b c e : K} {m : Side → Bool} {p : Vec K 2}
    {k k' : Vec K 2 × Vec K 2 × ρ} {lost : Bool}
    (h : Billiard (fun q => inBounds a b c e q = true) (walls a b c e m) p k k' lost) :
    (lost = false → Bounces a b (m .left) (m .right) (along 0 k) (along 0 k') false ∧
      Bounces c e (m .bottom) (m .top) (along 1 k) (along 1 k') false) ∧
    (lost = true → Bounces a b (m .left) (m .right) (along 0 k) (along 0 k') true ∨
      Bounces c e (m .bottom) (m .top) (along 1 k) (along 1 k') true) := by
  have beyond : ∀ {p1 k1 z t : K}, t < 1 → p1 + t * (k1 - p1) = z → 0 < k1 - p1 → z < k1 := by
    intro p1 k1 z t ht hz hk
    nlinarith [mul_pos (sub_pos.2 ht) hk]
  have below : ∀ {p1 k1 z t : K}, t < 1 → p1 + t * (k1 - p1) = z → k1 - p1 < 0 → k1 < z := by
    intro p1 k1 z t ht hz hk
    nlinarith [mul_neg_of_pos_of_neg (sub_pos.2 ht) hk]
  -- images
  have i0l : ∀ (k : Vec K 2 × Vec K 2 × ρ) (w : Vec K 2), w 0 = a →
      along 0 (imaged ![-1, 0] w k) = mirrored a (along 0 k) ∧ along 1 (imaged ![-1, 0] w k) = along 1 k := by
    intro k w hw
    constructor
    · simp only [along, imaged, mirrored, dotP, Prod.mk.injEq, and_true]
      constructor <;> funext r <;> simp [hw] <;> ring
    · simp only [along, imaged, dotP, Prod.mk.injEq, and_true]
      constructor <;> funext r <;> simp
  have i0r : ∀ (k : Vec K 2 × Vec K 2 × ρ) (w : Vec K 2), w 0 = b →
      along 0 (imaged ![1, 0] w k) = mirrored b (along 0 k) ∧ along 1 (imaged ![1, 0] w k) = along 1 k := by
    intro k w hw
    constructor
    · simp only [along, imaged, mirrored, dotP, Prod.mk.injEq, and_true]
      constructor <;> funext r <;> simp [hw] <;> ring
    · simp only [along, imaged, dotP, Prod.mk.injEq, and_true]
      constructor <;> funext r <;> simp
  have i1l : ∀ (k : Vec K 2 × Vec K 2 × ρ) (w : Vec K 2), w 1 = c →
      along 1 (imaged ![0, -1] w k) = mirrored c (along 1 k) ∧ along 0 (imaged ![0, -1] w k) = along 0 k := by
    intro k w hw
    constructor
    · simp only [along, imaged, mirrored, dotP, Prod.mk.injEq, and_true]
      constructor <;> funext r <;> simp [hw] <;> ring
    · simp only [along, imaged, dotP, Prod.mk.injEq, and_true]
      constructor <;> funext r <;> simp
  have i1r : ∀ (k : Vec K 2 × Vec K 2 × ρ) (w : Vec K 2), w 1 = e →
      along 1 (imaged ![0, 1] w k) = mirrored e (along 1 k) ∧ along 0 (imaged ![0, 1] w k) = along 0 k := by
    intro k w hw
    constructor
    · simp only [along, imaged, mirrored, dotP, Prod.mk.injEq, and_true]
      constructor <;> funext r <;> simp [hw] <;> ring
    · simp only [along, imaged, dotP, Prod.mk.injEq, and_true]
      constructor <;> funext r <;> simp
  induction h with
  | @stays p k h =>
    refine ⟨fun _ => ?_, fun h => by cases h⟩
    have := h 1 zero_le_one (le_refl _)
    rw [wayPoint_one] at this
    simp only [inBounds, decide_eq_true_eq] at this
    exact ⟨.stays this.1 this.2.1, .stays this.2.2.1 this.2.2.2⟩
  | @bounce p k k' lost w t h0 h1 h hon out hm r ih =>
    cases w with
    | left =>
      have hz : p 0 + t * (k.1 0 - p 0) = a := hon
      have hlt : k.1 0 < a := below h1 hz (by simp [walls, dotP] at out; linarith)
      obtain ⟨e1, e2⟩ := i0l k (wayPoint p k.1 t) hon
      simp only [walls] at ih
      rw [e1, e2] at ih
      exact ⟨fun hl => ⟨.leftMirror hm hlt (ih.1 hl).1, (ih.1 hl).2⟩,
        fun hl => (ih.2 hl).imp (.leftMirror hm hlt) id⟩
    | right =>
      have hz : p 0 + t * (k.1 0 - p 0) = b := hon
      have hlt : b < k.1 0 := beyond h1 hz (by simp [walls, dotP] at out; linarith)
      obtain ⟨e1, e2⟩ := i0r k (wayPoint p k.1 t) hon
      simp only [walls] at ih
      rw [e1, e2] at ih
      exact ⟨fun hl => ⟨.rightMirror hm hlt (ih.1 hl).1, (ih.1 hl).2⟩,
        fun hl => (ih.2 hl).imp (.rightMirror hm hlt) id⟩
    | bottom =>
      have hz : p 1 + t * (k.1 1 - p 1) = c := hon
      have hlt : k.1 1 < c := below h1 hz (by simp [walls, dotP] at out; linarith)
      obtain ⟨e1, e2⟩ := i1l k (wayPoint p k.1 t) hon
      simp only [walls] at ih
      rw [e1, e2] at ih
      exact ⟨fun hl => ⟨(ih.1 hl).1, .leftMirror hm hlt (ih.1 hl).2⟩,
        fun hl => (ih.2 hl).imp id (.leftMirror hm hlt)⟩
    | top =>
      have hz : p 1 + t * (k.1 1 - p 1) = e := hon
      have hlt : e < k.1 1 := beyond h1 hz (by simp [walls, dotP] at out; linarith)
      obtain ⟨e1, e2⟩ := i1r k (wayPoint p k.1 t) hon
      simp only [walls] at ih
      rw [e1, e2] at ih
      exact ⟨fun hl => ⟨(ih.1 hl).1, .rightMirror hm hlt (ih.1 hl).2⟩,
        fun hl => (ih.2 hl).imp id (.rightMirror hm hlt)⟩
  | @lost p k w t h0 h1 h hon out hm =>
    refine ⟨fun h => (by cases h), fun _ => ?_⟩
    cases w with
    | left =>
      have hz : p 0 + t * (k.1 0 - p 0) = a := hon
      have hlt : k.1 0 < a := below h1 hz (by simp [walls, dotP] at out; linarith)
      exact .inl (.leftHole hm hlt)
    | right =>
      have hz : p 0 + t * (k.1 0 - p 0) = b := hon
      have hlt : b < k.1 0 := beyond h1 hz (by simp [walls, dotP] at out; linarith)
      exact .inl (.rightHole hm hlt)
    | bottom =>
      have hz : p 1 + t * (k.1 1 - p 1) = c := hon
      have hlt : k.1 1 < c := below h1 hz (by simp [walls, dotP] at out; linarith)
      exact .inr (.leftHole hm hlt)
    | top =>
      have hz : p 1 + t * (k.1 1 - p 1) = e := hon
      have hlt : e < k.1 1 := beyond h1 hz (by simp [walls, dotP] at out; linarith)
      exact .inr (.rightHole hm hlt)

end Dt
