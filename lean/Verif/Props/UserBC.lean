import Verif.Lemmas.UserBC
import Verif.Props.NamedWalls
import Verif.Props.Leapfrog
import Verif.Props.SquareMesh

/-!
# C106: the boundary functions that come with the code
-/

set_option linter.unusedSectionVars false

namespace Dt
open Mark Spec.Mark
open TimeLoop
open Spec (Ideal lastOf)
variable {K : Type} [Field K] [LinearOrder K] [IsStrictOrderedRing K] {g p : Nat} {τ ρ φ V : Type}

/-! ### What is chosen, for every boundary and every species -/

/-- C106 (UserParticles_1D.py).  At `rmin` particles are reflected, except those of `neutral_H`; at `xmax`
nothing is done; everything else is deleted. -/
theorem C106_user1D (b sp : String) : chooseBC user1D b sp = some
    (if b = "rmin" then (if sp = "neutral_H" then .absorb else .reflect)
     else if b = "xmax" then .nothing else .absorb) := by
  have e1 : ("default_bc_at_" ++ b = "default_bc_at_xmin") ↔ b = "xmin" := default_at (x := "xmin")
  have e2 : ("default_bc_at_" ++ b = "default_bc_at_xmax") ↔ b = "xmax" := default_at (x := "xmax")
  have e3 : ("default_bc_at_" ++ b = "default_bc_at_rmin") ↔ b = "rmin" := default_at (x := "rmin")
  have e4 : ("default_bc_at_" ++ b = "default_bc_at_rmax") ↔ b = "rmax" := default_at (x := "rmax")
  have n1 : "default_bc_at_" ++ b ≠ "bc_at_xmin_for_neutral_H" := default_ne_bc (by decide)
  have n2 : "default_bc_at_" ++ b ≠ "bc_at_rmin_for_neutral_H" := default_ne_bc (by decide)
  have n3 : "bc_at_" ++ b ++ "_for_" ++ sp ≠ "default_bc" := bc_ne_default (by decide)
  have n4 : "bc_at_" ++ b ++ "_for_" ++ sp ≠ "default_bc_at_xmin" := bc_ne_default (by decide)
  have n5 : "bc_at_" ++ b ++ "_for_" ++ sp ≠ "default_bc_at_xmax" := bc_ne_default (by decide)
  have n6 : "bc_at_" ++ b ++ "_for_" ++ sp ≠ "default_bc_at_rmin" := bc_ne_default (by decide)
  have n7 : "bc_at_" ++ b ++ "_for_" ++ sp ≠ "default_bc_at_rmax" := bc_ne_default (by decide)
  have d0 : user1D "default_bc" = some .absorb := by decide
  have d1 : user1D ("default_bc_at_" ++ b) = if b = "xmin" then some .absorb else if b = "xmax" then some .nothing
      else if b = "rmin" then some .reflect else if b = "rmax" then some .absorb else none := by
    simp only [user1D, attrs_cons, attrs_nil, default_at_ne, if_false, e1, e2, e3, e4, n1, n2]
  have d2 : user1D ("bc_at_" ++ b ++ "_for_" ++ sp) = if b = "xmin" ∧ sp = "neutral_H" then some .absorb
      else if b = "rmin" ∧ sp = "neutral_H" then some .absorb else none := by
    simp only [user1D, attrs_cons, attrs_nil, if_false, n3, n4, n5, n6, n7, bc_neutral_xmin, bc_neutral_rmin]
  unfold chooseBC
  rw [d0, d1, d2]
  by_cases hr : b = "rmin"
  · subst hr
    by_cases hs : sp = "neutral_H" <;> simp [hs]
  · by_cases hx : b = "xmin"
    · subst hx
      by_cases hs : sp = "neutral_H" <;> simp [hs]
    · by_cases hm : b = "xmax"
      · simp [hm]
      · by_cases hm' : b = "rmax" <;> simp [hr, hx, hm, hm']

/-- C106 (UserParticles_2D_e.py).  `test_electrons` are reflected at `rmin`; everything else is deleted. -/
theorem C106_user2D (b sp : String) : chooseBC user2De b sp = some
    (if b = "rmin" ∧ sp = "test_electrons" then .reflect else .absorb) := by
  have e3 : ("default_bc_at_" ++ b = "default_bc_at_rmin") ↔ b = "rmin" := default_at (x := "rmin")
  have n2 : "default_bc_at_" ++ b ≠ "bc_at_rmin_for_test_electrons" := default_ne_bc (by decide)
  have n3 : "bc_at_" ++ b ++ "_for_" ++ sp ≠ "default_bc" := bc_ne_default (by decide)
  have n6 : "bc_at_" ++ b ++ "_for_" ++ sp ≠ "default_bc_at_rmin" := bc_ne_default (by decide)
  have d0 : user2De "default_bc" = some .absorb := by decide
  have d1 : user2De ("default_bc_at_" ++ b) = if b = "rmin" then some .absorb else none := by
    simp only [user2De, attrs_cons, attrs_nil, default_at_ne, if_false, e3, n2]
  have d2 : user2De ("bc_at_" ++ b ++ "_for_" ++ sp) = if b = "rmin" ∧ sp = "test_electrons" then some .reflect
      else none := by
    simp only [user2De, attrs_cons, attrs_nil, if_false, n3, n6, bc_test_rmin]
  unfold chooseBC
  rw [d0, d1, d2]
  by_cases hr : b = "rmin"
  · by_cases hs : sp = "test_electrons" <;> simp [hr, hs]
  · simp [hr]

/-- C106 (UserParticles_3D.py).  Particles are deleted at `xmin` and `ymin`; elsewhere nothing is done. -/
theorem C106_user3D (b sp : String) : chooseBC user3D b sp = some
    (if b = "xmin" ∨ b = "ymin" then .absorb else .nothing) := by
  have e1 : ("default_bc_at_" ++ b = "default_bc_at_xmin") ↔ b = "xmin" := default_at (x := "xmin")
  have e2 : ("default_bc_at_" ++ b = "default_bc_at_xmax") ↔ b = "xmax" := default_at (x := "xmax")
  have e3 : ("default_bc_at_" ++ b = "default_bc_at_ymin") ↔ b = "ymin" := default_at (x := "ymin")
  have e4 : ("default_bc_at_" ++ b = "default_bc_at_ymax") ↔ b = "ymax" := default_at (x := "ymax")
  have n1 : "default_bc_at_" ++ b ≠ "bc_at_xmin_for_neutral_H" := default_ne_bc (by decide)
  have n3 : "bc_at_" ++ b ++ "_for_" ++ sp ≠ "default_bc" := bc_ne_default (by decide)
  have n4 : "bc_at_" ++ b ++ "_for_" ++ sp ≠ "default_bc_at_xmin" := bc_ne_default (by decide)
  have n5 : "bc_at_" ++ b ++ "_for_" ++ sp ≠ "default_bc_at_xmax" := bc_ne_default (by decide)
  have n6 : "bc_at_" ++ b ++ "_for_" ++ sp ≠ "default_bc_at_ymin" := bc_ne_default (by decide)
  have n7 : "bc_at_" ++ b ++ "_for_" ++ sp ≠ "default_bc_at_ymax" := bc_ne_default (by decide)
  have d0 : user3D "default_bc" = some .nothing := by decide
  have d1 : user3D ("default_bc_at_" ++ b) = if b = "xmin" then some .absorb else if b = "xmax" then some .nothing
      else if b = "ymin" then some .absorb else if b = "ymax" then some .nothing else none := by
    simp only [user3D, attrs_cons, attrs_nil, default_at_ne, if_false, e1, e2, e3, e4, n1]
  have d2 : user3D ("bc_at_" ++ b ++ "_for_" ++ sp) = if b = "xmin" ∧ sp = "neutral_H" then some .absorb
      else none := by
    simp only [user3D, attrs_cons, attrs_nil, if_false, n3, n4, n5, n6, n7, bc_neutral_xmin]
  unfold chooseBC
  rw [d0, d1, d2]
  by_cases hx : b = "xmin"
  · subst hx
    by_cases hs : sp = "neutral_H" <;> simp [hs]
  · by_cases hm : b = "xmax"
    · simp [hm]
    · by_cases hy : b = "ymin"
      · simp [hy]
      · by_cases hm' : b = "ymax" <;> simp [hx, hm, hy, hm']

/-- C106 (cpp/UPBFs_spherical_r.h).  Particles are reflected at `rmin` and deleted elsewhere. -/
theorem C106_cpp_spherical (b sp : String) : chooseBC cppSphericalR b sp = some
    (if b = "rmin" then .reflect else .absorb) := by
  have e3 : ("default_bc_at_" ++ b = "default_bc_at_rmin") ↔ b = "rmin" := default_at (x := "rmin")
  have n3 : "bc_at_" ++ b ++ "_for_" ++ sp ≠ "default_bc" := bc_ne_default (by decide)
  have n6 : "bc_at_" ++ b ++ "_for_" ++ sp ≠ "default_bc_at_rmin" := bc_ne_default (by decide)
  have d0 : cppSphericalR "default_bc" = some .absorb := by decide
  have d1 : cppSphericalR ("default_bc_at_" ++ b) = if b = "rmin" then some .reflect else none := by
    simp only [cppSphericalR, attrs_cons, attrs_nil, default_at_ne, if_false, e3]
  have d2 : cppSphericalR ("bc_at_" ++ b ++ "_for_" ++ sp) = none := by
    simp only [cppSphericalR, attrs_cons, attrs_nil, if_false, n3, n6]
  unfold chooseBC
  rw [d0, d1, d2]
  by_cases hr : b = "rmin" <;> simp [hr]

/-- C106.  The Python functions of UserParticles_2D_e.py and the compiled ones agree, for every boundary and
every species; those for one dimension agree exactly where the boundary is not `xmax` and it is not
`neutral_H` at `rmin`. -/
theorem C106_compiled (b sp : String) :
    chooseBC cppUser b sp = chooseBC user2De b sp ∧
    (chooseBC cppSphericalR b sp = chooseBC user1D b sp ↔ b ≠ "xmax" ∧ ¬ (b = "rmin" ∧ sp = "neutral_H")) := by
  refine ⟨rfl, ?_⟩
  rw [C106_cpp_spherical, C106_user1D]
  by_cases hr : b = "rmin"
  · subst hr
    by_cases hs : sp = "neutral_H" <;> simp [hs]
  · by_cases hm : b = "xmax"
    · subst hm; simp
    · simp [hr, hm]

/-- C106 is false where the two differ: the same particle is deleted in Python and reflected by the compiled
code. -/
theorem C106_false_neutral_rmin :
    chooseBC user1D "rmin" "neutral_H" = some .absorb ∧ chooseBC cppSphericalR "rmin" "neutral_H" = some .reflect := by
  rw [C106_user1D, C106_cpp_spherical]; simp

/-! ### Functions that only print -/

/-- Selection commutes with interpretation. -/
theorem chooseBC_acting (t : Callbacks Act) (b sp : String) :
    chooseBC (acting (K := K) (g := g) (τ := τ) (ρ := ρ) t) b sp = (chooseBC t b sp).map Act.run := by
  unfold chooseBC acting
  cases t ("bc_at_" ++ b ++ "_for_" ++ sp) <;> cases t ("default_bc_at_" ++ b) <;> cases t "default_bc" <;> rfl

/-- The function called at a facet with the tag of boundary `b`. -/
theorem acting_call {t : Callbacks Act} {d : Dict} {species : List String} {b sn : String} {tag : Int} {a : Act}
    (hs : sn ∈ species) (ht : invName d tag = some b) (h : chooseBC t b sn = some a) (st : τ) (call : BCall K g g ρ) :
    namedBC (acting t) d species sn tag st call = a.run (st, call) := by
  unfold namedBC callBC bcDict
  rw [ht]
  simp only [if_pos hs, chooseBC_acting, h, Option.map_some]

theorem nothing_idle : Idle (fun (st : τ) (call : BCall K g g ρ) => Act.nothing.run (st, call)) := by
  intro st call st' q e
  cases e
  exact ⟨rfl, rfl, rfl, rfl, rfl⟩

theorem moveCharged_idle {h : g ≤ p} {M : Mesh K g} {bc : Int → τ → BCall K g p ρ → Except Err (τ × Part K p ρ)}
    {v : Variant} {n : Nat} {time dt qom : K} {E : Part K p ρ → Option (Vec K p)} {st : τ × Vec K p}
    {q : Part K p ρ} (hd : q.del = false) (hi : IdleAhead M bc (proj h ((leap dt qom (E q) (kin q)).1 - q.x)))
    {st' : τ × Vec K p} {q' : Part K p ρ} {evs : List (Part K p ρ × K)}
    (hr : moveCharged h M v bc n time dt (qom * dt) false E st q = .ok (st', q', evs)) :
    kin q' = leap dt qom (E q) (kin q) ∧ q'.del = false ∧
    ∃ ci, M.isInside (proj h (leap dt qom (E q) (kin q)).1) ci = .ok true := by
  unfold moveCharged at hr
  simp only [Bool.false_eq_true, if_false, bind, Except.bind] at hr
  have hx : (startTrk time dt st.1 st.2 (moveBy dt (accelerate (qom * dt) (E q) q))).part.x =
      (leap dt qom (E q) (kin q)).1 := by
    cases hE : E q <;> simp [leap, startTrk, moveBy, accelerate, kin]
  have hu : (startTrk time dt st.1 st.2 (moveBy dt (accelerate (qom * dt) (E q) q))).part.u =
      (leap dt qom (E q) (kin q)).2.1 := by
    cases hE : E q <;> simp [leap, startTrk, moveBy, accelerate, kin]
  have hx0 : (startTrk time dt st.1 st.2 (moveBy dt (accelerate (qom * dt) (E q) q))).part.x0 = q.x := by
    cases hE : E q <;> rfl
  cases ht : track h M v bc n (startTrk time dt st.1 st.2 (moveBy dt (accelerate (qom * dt) (E q) q))) with
  | error er => rw [ht] at hr; cases hr
  | ok s =>
    rw [ht] at hr
    have hdd : (startTrk time dt st.1 st.2 (moveBy dt (accelerate (qom * dt) (E q) q))).part.del = false := by
      cases hE : E q <;> exact hd
    obtain ⟨k1, k2, k3, kr, k4⟩ := track_idle hi zero_le_one (by rw [one_smul, hx, hx0]) hdd ht
    rw [hx] at k1 k4
    rw [hu] at k2
    have hrest : (startTrk time dt st.1 st.2 (moveBy dt (accelerate (qom * dt) (E q) q))).part.rest =
        (leap dt qom (E q) (kin q)).2.2 := by
      cases hE : E q <;> rfl
    rw [hrest] at kr
    cases hr
    exact ⟨Prod.ext k1 (Prod.ext k2 kr), k3, _, k4⟩

/-- C106 (a function that only prints).  A particle that would leave the mesh in this step and has, in the
direction of its motion, only facets without a tag or with functions that do nothing, makes the mover fail. -/
theorem C106_stops {h : g ≤ p} {M : Mesh K g} {bc : Int → τ → BCall K g p ρ → Except Err (τ × Part K p ρ)}
    (v : Variant) (n : Nat) (time dt qom : K) (E : Part K p ρ → Option (Vec K p)) (st : τ × Vec K p)
    {q : Part K p ρ} (hd : q.del = false)
    (hi : IdleAhead M bc (proj h ((leap dt qom (E q) (kin q)).1 - q.x)))
    (hout : ∀ ci, M.isInside (proj h (leap dt qom (E q) (kin q)).1) ci ≠ .ok true) :
    ∃ er, moveCharged h M v bc n time dt (qom * dt) false E st q = .error er := by
  cases hr : moveCharged h M v bc n time dt (qom * dt) false E st q with
  | error er => exact ⟨er, rfl⟩
  | ok r =>
    obtain ⟨ci, hci⟩ := (moveCharged_idle hd hi hr).2.2
    exact absurd hci (hout ci)

/-- C106 (UserParticles_3D.py).  A particle that leaves in a step in whose direction no facet is tagged as
`xmin` or `ymin` makes the mover fail, for every mesh. -/
theorem C106_stops_3D {M : Mesh K 3} {d : Dict} {species : List String} {sn : String} (hs : sn ∈ species)
    (v : Variant) (n : Nat) (time dt qom : K) (E : Part K 3 ρ → Option (Vec K 3)) (st : τ × Vec K 3)
    {q : Part K 3 ρ} (hd : q.del = false)
    (hdir : ∀ ci c k nn F, M.cell ci = some c → pyGet c.normals k = .ok nn → pyGet c.facets k = .ok F →
      0 < dot nn ((leap dt qom (E q) (kin q)).1 - q.x) →
      invName d (M.marker F) ≠ some "xmin" ∧ invName d (M.marker F) ≠ some "ymin")
    (hout : ∀ ci, M.isInside (leap dt qom (E q) (kin q)).1 ci ≠ .ok true) :
    ∃ er, moveCharged (le_refl 3) M v (namedBC (acting user3D) d species sn) n time dt (qom * dt) false E st q =
      .error er := by
  refine C106_stops (h := le_refl 3) v n time dt qom E st hd ?_ hout
  intro ci c k nn F h1 h2 h3 h4 _
  obtain ⟨a1, a2⟩ := hdir ci c k nn F h1 h2 h3 h4
  cases hb : invName d (M.marker F) with
  | none =>
    intro st call st' q' e
    unfold namedBC callBC bcDict at e
    rw [hb] at e
    cases e
  | some b =>
    rw [hb] at a1 a2
    have hc : chooseBC user3D b sn = some .nothing := by
      rw [C106_user3D, if_neg]
      rintro (rfl | rfl)
      · exact a1 rfl
      · exact a2 rfl
    intro st call st' q' e
    rw [acting_call hs hb hc] at e
    exact nothing_idle st call st' q' e

theorem pyGet_two {A B : Type} {a b n : A} {c d F : B} {k : Int} (h1 : pyGet [a, b] k = .ok n)
    (h2 : pyGet [c, d] k = .ok F) : n = a ∧ F = c ∨ n = b ∧ F = d := by
  have two : ∀ j : Nat, orIndexErr [a, b][j]? = .ok n → orIndexErr [c, d][j]? = .ok F →
      n = a ∧ F = c ∨ n = b ∧ F = d := by
    intro j e1 e2
    match j with
    | 0 => cases e1; cases e2; exact .inl ⟨rfl, rfl⟩
    | 1 => cases e1; cases e2; exact .inr ⟨rfl, rfl⟩
    | j + 2 => cases e1
  unfold pyGet at h1 h2
  split at h1
  · rename_i hk
    rw [if_pos hk] at h2
    exact two _ h1 h2
  · rename_i hk
    rw [if_neg hk] at h2
    split at h1
    · rename_i hk'
      rw [if_pos (show 0 ≤ k + ([c, d].length : Int) from hk')] at h2
      exact two _ h1 h2
    · cases h1

theorem line_inside {x : Nat → K} {N : Nat} {marker : Int → Int} (hx : ∀ i < N, x i < x (i + 1)) {y : Vec K 1} {ci : Int}
    (h : (lineMesh x N marker).isInside y ci = .ok true) : y 0 ≤ x N := by
  have mono : ∀ k, ∀ i, i + k = N → x i ≤ x N := by
    intro k
    induction k with
    | zero => intro i hi; rw [show i = N by omega]
    | succ k ih => intro i hi; exact (hx i (by omega)).le.trans (ih (i + 1) (by omega))
  unfold Mesh.isInside Mesh.lookup at h
  by_cases hci : 0 ≤ ci ∧ ci < N
  · have hcell : (lineMesh x N marker).cell ci = some (lineCell x N ci.toNat) := if_pos hci
    rw [hcell] at h
    simp only [bind, Except.bind, pure, Except.pure, Except.ok.injEq] at h
    have hreg : (lineCell x N ci.toNat).Regular := lineCell_regular (hx _ (by omega))
    exact ((lineCell_has _).1 ((contains_iff hreg _).1 h)).2.trans (mono (N - (ci.toNat + 1)) _ (by omega))
  · have hcell : (lineMesh x N marker).cell ci = none := if_neg hci
    rw [hcell] at h
    cases h

/-- C106 (UserParticles_1D.py).  On an interval whose right end is tagged as `xmax`, a particle whose step ends
beyond that end makes the mover fail, whatever its species and whatever is at the other end. -/
theorem C106_stops_xmax {x : Nat → K} {N : Nat} {marker : Int → Int} (hx : ∀ i < N, x i < x (i + 1)) {d : Dict}
    (hN : invName d (marker N) = some "xmax") (hI : ∀ F : Int, 0 < F → F < N → marker F = 0)
    {species : List String} {sn : String} (hs : sn ∈ species)
    (v : Variant) (n : Nat) (time dt qom : K) (E : Part K 1 ρ → Option (Vec K 1)) (st : τ × Vec K 1)
    {q : Part K 1 ρ} (hq : Present (le_refl 1) (lineMesh x N marker) q)
    (hout : x N < (leap dt qom (E q) (kin q)).1 0) :
    ∃ er, moveCharged (le_refl 1) (lineMesh x N marker) v (namedBC (acting user1D) d species sn) n time dt
      (qom * dt) false E st q = .error er := by
  refine C106_stops (h := le_refl 1) v n time dt qom E st hq.2 ?_
    (fun ci h => absurd (line_inside hx h) (not_le.2 hout))
  have hq0 : q.x 0 ≤ x N := line_inside hx hq.1
  intro ci c k nn F h1 h2 h3 h4 hm
  have hci : 0 ≤ ci ∧ ci < N := by
    by_contra hcon
    have : (lineMesh x N marker).cell ci = none := if_neg hcon
    rw [this] at h1; cases h1
  have hc : c = lineCell x N ci.toNat := by
    have : (lineMesh x N marker).cell ci = some (lineCell x N ci.toNat) := if_pos hci
    rw [this] at h1; exact (Option.some.inj h1).symm
  subst hc
  have hdir : 0 < nn 0 * ((leap dt qom (E q) (kin q)).1 0 - q.x 0) := by
    simpa [dot, proj] using h4
  have hF : F = ci + 1 := by
    rcases pyGet_two h2 h3 with ⟨rfl, -⟩ | ⟨-, rfl⟩
    · exfalso
      have : (0 : K) < -1 * ((leap dt qom (E q) (kin q)).1 0 - q.x 0) := hdir
      linarith
    · omega
  subst hF
  have hcN : ci + 1 = N := by
    by_contra hcon
    exact hm (hI _ (by omega) (by omega))
  have hb : invName d ((lineMesh x N marker).marker (ci + 1)) = some "xmax" := by rw [hcN]; exact hN
  have hch : chooseBC user1D "xmax" sn = some .nothing := by rw [C106_user1D]; simp
  intro st call st' q' e
  rw [acting_call hs hb hch] at e
  exact nothing_idle st call st' q' e

/-- C106 (a whole simulation).  If the functions of all species do nothing at every boundary, a simulation
either raises or never loses a particle: its particles make leapfrog steps. -/
theorem C106_run {h : g ≤ p} {M : Mesh K g}
    {bc : String → Int → τ → BCall K g p ρ → Except Err (τ × Part K p ρ)} (hidle : ∀ sn t, Idle (bc sn t))
    (hcell : ∀ sn, KeepsCell (bc sn)) {maxCross : Nat} {qom : String → K}
    {E : String → φ → Part K p ρ → Option (Vec K p)} {cfg : Cfg K V (Part K p ρ) (τ × Vec K p) φ}
    (hmove : cfg.move = pyMove h M bc maxCross cfg.dt qom E) (hsrc : SourcesPresent h M cfg.sources)
    {onMesh : Part K p ρ → Bool} {d : Nat → Nat} {sl D C : Nat}
    (hc : GoodCfg cfg) (hm : GoodMesh cfg onMesh d D C) {z : Species.HRow K} (n : Nat)
    {init : Option (List (String × List (Part K p ρ)))} (hinit : InitPresent h M init)
    {st : State K V (Part K p ρ) (τ × Vec K p) φ} {i : Ideal K V (Part K p ρ) (τ × Vec K p)} {b : List K}
    (hf : Fresh sl D C n z st i b) (hn : (i.pops.map (·.name)).Nodup)
    (hnone : st.writer = none → cfg.partEvery = none)
    {i0 : Ideal K V (Part K p ρ) (τ × Vec K p)} {is : List (Ideal K V (Part K p ρ) (τ × Vec K p))}
    (hr : Ideal.run cfg sl D onMesh init b n i = .ok (i0, is)) :
    (i0 :: is).IsChain (LeapStep h (fun _ => true) qom E cfg sl D) ∧
    ∃ st', run cfg init n st = .ok st' ∧ Outcome cfg d C init.isSome b st st' i0 is :=
  motion_run (motion := fun sn f q => leap cfg.dt (qom sn) (E sn f q) (kin q)) (keep := fun _ => true)
    (fun sn f time st q st' q' evs hq em => by
      obtain ⟨k1, k2, -⟩ := moveCharged_idle hq.2 (fun _ _ _ _ _ _ _ _ _ _ => hidle sn _) em
      exact ⟨k1, k2⟩)
    hcell hmove hsrc hc hm n hinit hf hn hnone hr

/-! ### The sphere of the sample module -/

theorem acts_absorb : ActsLike false (Act.absorb.run (K := K) (g := g) (τ := τ) (ρ := ρ)) := fun st _ => ⟨st, rfl⟩

theorem acts_reflect : ActsLike true (Act.reflect.run (K := K) (g := g) (τ := τ) (ρ := ρ)) := fun st _ => ⟨st, rfl⟩

theorem provided_of {t : Callbacks Act} {b sn : String} {a : Act} (h : chooseBC t b sn = some a) :
    Provided (acting (K := K) (g := g) (τ := τ) (ρ := ρ) t) b sn a.run := by
  unfold chooseBC at h
  unfold Provided acting
  cases h1 : t ("bc_at_" ++ b ++ "_for_" ++ sn) with
  | some f => rw [h1] at h; cases h; exact .inl (by simp)
  | none =>
    rw [h1] at h
    cases h2 : t ("default_bc_at_" ++ b) with
    | some f => rw [h2] at h; cases h; exact .inr (.inl (by simp))
    | none =>
      rw [h2] at h
      cases h3 : t "default_bc" with
      | some f => rw [h3] at h; cases h; exact .inr (.inr (by simp))
      | none => rw [h3] at h; cases h

/-- C106 (spheres and shells).  With the functions of UserParticles_1D.py a particle of a sphere or shell
made by `create_mesh` is, after a step, where the motion between a mirror at `rmin` (no mirror for
`neutral_H`) and an absorbing wall at `rmax` leads, and the step does not fail. -/
theorem C106_sphere {pw : K → K} (hpw : PowLike pw) {rmin rmax : K} (hrr : rmin < rmax) {nr : Nat} (hn : 0 < nr)
    {fo : Option Dict} {pd : Dict} (hg : GoodTags pd) {pa pb : Int}
    (h3 : ("rmin", pa) ∈ pd) (h4 : ("rmax", pb) ∈ pd) {ms : Marks Nat}
    (e : createRadial (K := K) nr fo (some pd) = .ok ms) {species : List String} {sn : String} (hs : sn ∈ species) :
    ∃ pm, ms.particle = some pm ∧ ∀ {n : Nat}, 2 * nr ≤ n → ∀ (time dt qom : K)
      (E : Part K 1 ρ → Option (Vec K 1)) (st : τ × Vec K 1) {q : Part K 1 ρ},
      Present (le_refl 1) (lineMesh (Radial.vertex rmin rmax pw nr) nr (onLine nr pm)) q →
      ∃ st' q' evs, moveCharged (le_refl 1) (lineMesh (Radial.vertex rmin rmax pw nr) nr (onLine nr pm)) .charged
          (namedBC (acting user1D) pd species sn) n time dt (qom * dt) false E st q = .ok (st', q', evs) ∧
        Bounces rmin rmax (decide (sn ≠ "neutral_H")) false (leap dt qom (E q) (kin q)) (kin q') q'.del := by
  have hr : Provided (acting (K := K) (g := 1) (τ := τ) (ρ := ρ) user1D) "rmax" sn Act.absorb.run :=
    provided_of (by rw [C106_user1D]; simp)
  have hl : ∃ a : Act, Provided (acting (K := K) (g := 1) (τ := τ) (ρ := ρ) user1D) "rmin" sn a.run ∧
      ActsLike (decide (sn ≠ "neutral_H")) (a.run (K := K) (g := 1) (τ := τ) (ρ := ρ)) := by
    by_cases hsn : sn = "neutral_H"
    · refine ⟨.absorb, provided_of (by rw [C106_user1D]; simp [hsn]), ?_⟩
      simp only [hsn, ne_eq, not_true, decide_false]
      exact acts_absorb
    · refine ⟨.reflect, provided_of (by rw [C106_user1D]; simp [hsn]), ?_⟩
      simp only [hsn, ne_eq, not_false_eq_true, decide_true]
      exact acts_reflect
  obtain ⟨a, hl1, hl2⟩ := hl
  obtain ⟨pm, hp, -, hstep, hok⟩ := C83_particle hpw hrr hn hg h3 h4 e hs hl1 hr hl2 acts_absorb
  refine ⟨pm, hp, ?_⟩
  intro n hnn time dt qom E st q hq
  obtain ⟨⟨st', q', evs⟩, hr⟩ := hok rfl hnn time dt (qom * dt) E st hq
  exact ⟨st', q', evs, hr, hstep hq hr⟩

/-! ### The hypotheses are met -/

/-- A step on the interval from 0 to 3 with tags 1 and 2 at the ends, named `lo` and `hi`. -/
def intervalStep (t : Callbacks Act) (lo hi sn : String) (r u : ℚ) (cell : Int) : Except Err (ℚ × ℚ × Bool) :=
  (moveCharged (le_refl 1) (lineMesh (fun i => (i : ℚ)) 3 (fun F => if F = 0 then 1 else if F = 3 then 2 else 0)) .charged
    (namedBC (acting t) [(lo, 1), (hi, 2)] ["neutral_H", "electrons"] sn) 100 1 1 1 false (fun _ => none) ((), ![0])
    (demoPart r u cell false)).map (fun a => (a.2.1.x 0, a.2.1.u 0, a.2.1.del))

-- xmin deletes, xmax stops the run; in the radial case rmin reflects electrons and deletes neutral_H.
example : intervalStep user1D "xmin" "xmax" "electrons" (1 / 2) (-1) 0 = .ok (-1 / 2, -1, true) ∧
    intervalStep user1D "xmin" "xmax" "electrons" (5 / 2) 1 2 = .error .sameFacet ∧
    intervalStep user1D "xmin" "xmax" "electrons" (3 / 2) 1 1 = .ok (5 / 2, 1, false) ∧
    intervalStep cppSphericalR "xmin" "xmax" "electrons" (5 / 2) 1 2 = .ok (7 / 2, 1, true) ∧
    intervalStep user1D "rmin" "rmax" "electrons" (1 / 2) (-1) 0 = .ok (1 / 2, 1, false) ∧
    intervalStep user1D "rmin" "rmax" "neutral_H" (1 / 2) (-1) 0 = .ok (-1 / 2, -1, true) ∧
    intervalStep cppSphericalR "rmin" "rmax" "neutral_H" (1 / 2) (-1) 0 = .ok (1 / 2, 1, false) := by
  decide +kernel

-- The hypotheses of `C106_stops_xmax`.
example : (∀ i < 3, (fun i : Nat => (i : ℚ)) i < (fun i : Nat => (i : ℚ)) (i + 1)) ∧
    invName [("xmin", 1), ("xmax", 2)] 2 = some "xmax" ∧
    Present (le_refl 1) (lineMesh (fun i => (i : ℚ)) 3 (fun F => if F = 0 then 1 else if F = 3 then 2 else 0))
      (demoPart (5 / 2) 1 2 false) ∧
    (3 : ℚ) < (leap 1 1 none (kin (demoPart (5 / 2) 1 2 false))).1 0 := by
  refine ⟨fun i _ => by push_cast; linarith, by decide, ?_, ?_⟩
  · unfold Present InItsCell; decide +kernel
  · decide +kernel

/-- The unit tetrahedron with the slanted facet tagged as `slope`, the others as `xmin`, `ymin`, `zmin`. -/
def namedTet : Mesh ℚ 3 := ⟨fun i => if i = 0 then some tetCell else none, fun F => F + 1⟩

def tetNames : Dict := [("slope", 1), ("xmin", 2), ("ymin", 3), ("zmin", 4)]

-- The hypotheses of `C106_stops_3D`: a particle that moves along the diagonal can only cross the slope.
example (q : Part ℚ 3 Nat) (hx : q.x = ![1/4, 1/4, 1/4]) (hu : q.u = ![1, 1, 1]) :
    (∀ ci c k nn F, namedTet.cell ci = some c → pyGet c.normals k = .ok nn → pyGet c.facets k = .ok F →
      0 < dot nn ((leap 1 1 none (kin q)).1 - q.x) →
      invName tetNames (namedTet.marker F) ≠ some "xmin" ∧ invName tetNames (namedTet.marker F) ≠ some "ymin") ∧
    (∀ ci, namedTet.isInside (leap 1 1 none (kin q)).1 ci ≠ .ok true) := by
  have hl : (leap 1 1 none (kin q)).1 = ![5/4, 5/4, 5/4] := by
    funext i; fin_cases i <;> simp [leap, kin, hx, hu] <;> norm_num
  rw [hl, hx]
  have hc : ∀ {ci c}, namedTet.cell ci = some c → c = tetCell := by
    intro ci c h
    simp only [namedTet] at h
    split at h
    · cases h; rfl
    · cases h
  constructor
  · intro ci c k nn F h1 h2 h3 h4
    rw [hc h1] at h2 h3
    have four : ∀ j : Nat, orIndexErr tetCell.normals[j]? = .ok nn → orIndexErr tetCell.facets[j]? = .ok F →
        F = 0 := by
      intro j e1 e2
      match j with
      | 0 => cases e2; rfl
      | 1 => cases e1; exfalso; revert h4; decide +kernel
      | 2 => cases e1; exfalso; revert h4; decide +kernel
      | 3 => cases e1; exfalso; revert h4; decide +kernel
      | j + 4 => cases e1
    have hF : F = 0 := by
      unfold pyGet at h2 h3
      split at h2
      · rename_i hk; rw [if_pos hk] at h3; exact four _ h2 h3
      · rename_i hk
        rw [if_neg hk] at h3
        split at h2
        · rename_i hk'
          rw [if_pos (show 0 ≤ k + (tetCell.facets.length : Int) from hk')] at h3
          exact four _ h2 h3
        · cases h2
    subst hF
    decide
  · intro ci h
    unfold Mesh.isInside Mesh.lookup at h
    cases hcell : namedTet.cell ci with
    | none => rw [hcell] at h; cases h
    | some c =>
      rw [hcell, hc hcell] at h
      simp only [bind, Except.bind, pure, Except.pure, Except.ok.injEq] at h
      revert h
      decide +kernel

end Dt
