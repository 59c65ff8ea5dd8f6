import Verif.Props.MeshMark
import Verif.Props.Wall
import Verif.Props.BC
import Verif.Props.Mesh

/-!
# From named boundaries to the motion of particles (C83)
-/

set_option linter.unusedSectionVars false

namespace Dt
open Mark Spec.Mark
variable {K : Type} [Field K] [LinearOrder K] [IsStrictOrderedRing K] {g p : Nat} {τ ρ : Type}

/-- The callbacks of one species (`bc_function_dict[facValue][sn]`), as the tracking loop sees them. -/
def namedBC (cb : Callbacks (τ × BCall K g p ρ → Except Err (τ × Part K p ρ))) (d : Dict)
    (species : List String) (sn : String) : Int → τ → BCall K g p ρ → Except Err (τ × Part K p ρ) :=
  fun tag st call => callBC cb d species tag sn (st, call)

/-- The callback reflects (`true`) or deletes, and may do something to its own state. -/
def ActsLike (B : Bool) (f : τ × BCall K g g ρ → Except Err (τ × Part K g ρ)) : Prop :=
  ∀ st call, ∃ st', f (st, call) = if B then bcReflect st' call else bcAbsorb st' call

/-- The callback the user has provided for boundary `b` and species `sn`: the most specific of the three
names. -/
def Provided (cb : Callbacks (τ × BCall K g g ρ → Except Err (τ × Part K g ρ))) (b sn : String)
    (f : τ × BCall K g g ρ → Except Err (τ × Part K g ρ)) : Prop :=
  cb ("bc_at_" ++ b ++ "_for_" ++ sn) = some f ∨
  (cb ("bc_at_" ++ b ++ "_for_" ++ sn) = none ∧ cb ("default_bc_at_" ++ b) = some f) ∨
  (cb ("bc_at_" ++ b ++ "_for_" ++ sn) = none ∧ cb ("default_bc_at_" ++ b) = none ∧ cb "default_bc" = some f)

theorem provided_call {cb : Callbacks (τ × BCall K g g ρ → Except Err (τ × Part K g ρ))} {d : Dict}
    {species : List String} {b sn : String} {f : τ × BCall K g g ρ → Except Err (τ × Part K g ρ)} {t : Int}
    (hs : sn ∈ species) (ht : TagOf d t b) (h : Provided cb b sn f) (a : τ × BCall K g g ρ) :
    callBC cb d species t sn a = f a := by
  obtain ⟨h1, h2, h3⟩ := C40_most_specific cb ht hs a f
  rcases h with h | ⟨e1, e2⟩ | ⟨e1, e2, e3⟩
  · exact h1 h
  · exact h2 e1 e2
  · exact h3 e1 e2 e3

theorem tagOf_of {d : Dict} (hinj : (d.map Prod.snd).Nodup) {b : String} {t : Int} (h : (b, t) ∈ d) :
    TagOf d t b := by
  induction d with
  | nil => cases h
  | cons e d ih =>
    simp only [List.map_cons, List.nodup_cons] at hinj
    rcases List.mem_cons.1 h with h | h
    · subst h
      exact .here (fun e he heq => hinj.1 (List.mem_map.2 ⟨e, he, heq⟩))
    · exact .there e (ih hinj.2 h)

/-- Tags that tell the sides apart: one per name, all different, all positive. -/
structure GoodTags (d : Dict) : Prop where
  keys : IsDict d
  inj : (d.map Prod.snd).Nodup
  pos : ∀ e ∈ d, 0 < e.2

/-- A facet function on the facets `0` to `N` of an interval, 0 elsewhere. -/
def onLine (N : Nat) (m : Nat → Int) : Int → Int := fun F => if 0 ≤ F ∧ F ≤ N then m F.toNat else 0

theorem radial_particle {nr : Nat} (hn : 1 ≤ nr) {fo : Option Dict} {pd : Dict} (hpd : IsDict pd) {pa pb : Int}
    (h3 : ("rmin", pa) ∈ pd) (h4 : ("rmax", pb) ∈ pd) (g3 : 0 ≤ pa) (g4 : 0 ≤ pb) {ms : Marks Nat}
    (e : createRadial (K := K) nr fo (some pd) = .ok ms) :
    ∃ pm, ms.particle = some pm ∧ ∀ i ≤ nr, pm i = if i = 0 then pa else if i = nr then pb else 0 := by
  have hv0 : (Radial.unitVertex nr 0 : K) = 0 := by simp [Radial.unitVertex]
  have hvn : (Radial.unitVertex nr nr : K) = 1 := by
    unfold Radial.unitVertex
    exact div_self (by exact_mod_cast (by omega : nr ≠ 0))
  have htol : (tol : K) ≤ 1 - 0 := by unfold tol; norm_num
  have e2 := line_tagged hn hv0 hvn htol h3 h4
  unfold createRadial at e
  dsimp only at e
  cases hf : ifDict fo (fun d => markTwo (lineFacet (K := K) (Radial.unitVertex nr) nr) d "rmin" "rmax" (0 : K) 1)
    with
  | error er => rw [hf] at e; cases e
  | ok fm =>
    rw [hf] at e
    simp only [ifDict, bind, Except.bind, pure, Except.pure] at e
    rw [markTwo_ok _ hpd h3 h4 g3 g4] at e
    cases e
    exact ⟨_, rfl, e2.2⟩

/-- C83.  A radial mesh made with a dictionary of particle boundaries, and callbacks named after the
boundaries: at the inner end the particles of a species meet the most specific of the callbacks for
`rmin`, at the outer end that for `rmax`, and no callback in between. -/
theorem C83_named_walls {nr : Nat} (hn : 1 ≤ nr) {fo : Option Dict} {pd : Dict} (hg : GoodTags pd) {pa pb : Int}
    (h3 : ("rmin", pa) ∈ pd) (h4 : ("rmax", pb) ∈ pd) {ms : Marks Nat}
    (e : createRadial (K := K) nr fo (some pd) = .ok ms)
    {cb : Callbacks (τ × BCall K 1 1 ρ → Except Err (τ × Part K 1 ρ))} {species : List String} {sn : String}
    (hs : sn ∈ species) {fl fr : τ × BCall K 1 1 ρ → Except Err (τ × Part K 1 ρ)} {L R : Bool}
    (hl : Provided cb "rmin" sn fl) (hr : Provided cb "rmax" sn fr) (al : ActsLike L fl) (ar : ActsLike R fr) :
    ∃ pm, ms.particle = some pm ∧ onLine nr pm 0 ≠ 0 ∧ onLine nr pm nr ≠ 0 ∧
      (∀ st call, namedBC cb pd species sn (onLine nr pm 0) st call = fl (st, call)) ∧
      (∀ st call, namedBC cb pd species sn (onLine nr pm nr) st call = fr (st, call)) ∧
      (∀ F : Int, F ≠ 0 → F ≠ nr → onLine nr pm F = 0) ∧
      WallBC (onLine nr pm) nr L R (namedBC cb pd species sn) := by
  have ga : 0 < pa := hg.pos _ h3
  have gb : 0 < pb := hg.pos _ h4
  obtain ⟨pm, hp, hm⟩ := radial_particle hn hg.keys h3 h4 ga.le gb.le e
  have m0 : onLine nr pm 0 = pa := by
    have := hm 0 (Nat.zero_le _)
    simp [onLine, this]
  have mN : onLine nr pm nr = pb := by
    have := hm nr (le_refl _)
    rw [if_neg (by omega), if_pos rfl] at this
    simp [onLine, this]
  have mI : ∀ F : Int, F ≠ 0 → F ≠ nr → onLine nr pm F = 0 := by
    intro F h0 hN
    unfold onLine
    split
    · rename_i h
      rw [hm _ (by omega), if_neg (by omega), if_neg (by omega)]
    · rfl
  have cl : ∀ st call, namedBC cb pd species sn (onLine nr pm 0) st call = fl (st, call) := fun st call => by
    rw [m0]; exact provided_call hs (tagOf_of hg.inj h3) hl _
  have cr : ∀ st call, namedBC cb pd species sn (onLine nr pm nr) st call = fr (st, call) := fun st call => by
    rw [mN]; exact provided_call hs (tagOf_of hg.inj h4) hr _
  refine ⟨pm, hp, by rw [m0]; omega, by rw [mN]; omega, cl, cr, mI, ?_, ?_, ?_⟩
  · intro st call _
    rw [cl]; exact al st call
  · intro st call _
    rw [cr]; exact ar st call
  · intro st call h0 hN
    right
    refine ⟨mI _ h0 hN, .key, ?_⟩
    rw [mI _ h0 hN]
    have : invName pd 0 = none := invName_none (fun e he => (hg.pos e he).ne')
    simp [namedBC, callBC, bcDict, this]

/-- C83 (one particle).  A particle in a sphere or a shell of inner radius `rmin` and outer radius
`rmax`: after a step of the charged mover it is where the motion between walls with the properties of the
named callbacks leads. -/
theorem C83_particle {pw : K → K} (hpw : PowLike pw) {rmin rmax : K} (hrr : rmin < rmax) {nr : Nat} (hn : 0 < nr)
    {fo : Option Dict} {pd : Dict} (hg : GoodTags pd) {pa pb : Int}
    (h3 : ("rmin", pa) ∈ pd) (h4 : ("rmax", pb) ∈ pd) {ms : Marks Nat}
    (e : createRadial (K := K) nr fo (some pd) = .ok ms)
    {cb : Callbacks (τ × BCall K 1 1 ρ → Except Err (τ × Part K 1 ρ))} {species : List String} {sn : String}
    (hs : sn ∈ species) {fl fr : τ × BCall K 1 1 ρ → Except Err (τ × Part K 1 ρ)} {L R : Bool}
    (hl : Provided cb "rmin" sn fl) (hr : Provided cb "rmax" sn fr) (al : ActsLike L fl) (ar : ActsLike R fr) :
    ∃ pm, ms.particle = some pm ∧
      (lineMesh (Radial.vertex rmin rmax pw nr) nr (onLine nr pm)).Conforming ∧
      (∀ {n : Nat} {time dt qom : K} {E : Part K 1 ρ → Option (Vec K 1)} {st st' : τ × Vec K 1}
        {q q' : Part K 1 ρ} {evs : List (Part K 1 ρ × K)},
        Present (le_refl 1) (lineMesh (Radial.vertex rmin rmax pw nr) nr (onLine nr pm)) q →
        moveCharged (le_refl 1) (lineMesh (Radial.vertex rmin rmax pw nr) nr (onLine nr pm)) .charged
          (namedBC cb pd species sn) n time dt (qom * dt) false E st q = .ok (st', q', evs) →
        Bounces rmin rmax L R (leap dt qom (E q) (kin q)) (kin q') q'.del) ∧
      (R = false → ∀ {n : Nat}, 2 * nr ≤ n → ∀ (time dt qmdt : K) (E : Part K 1 ρ → Option (Vec K 1))
        (st : τ × Vec K 1) {q : Part K 1 ρ},
        Present (le_refl 1) (lineMesh (Radial.vertex rmin rmax pw nr) nr (onLine nr pm)) q →
        ∃ r, moveCharged (le_refl 1) (lineMesh (Radial.vertex rmin rmax pw nr) nr (onLine nr pm)) .charged
          (namedBC cb pd species sn) n time dt qmdt false E st q = .ok r) := by
  obtain ⟨pm, hp, m0, mN, -, -, -, hw⟩ := C83_named_walls hn hg h3 h4 e hs hl hr al ar
  obtain ⟨v0, vN, -, hc⟩ := C49_radial_mesh hpw hrr hn
  have hM := hc _ m0 mN
  refine ⟨pm, hp, hM, ?_, ?_⟩
  · intro n time dt qom E st st' q q' evs hq em
    have := C76_particle hM rfl rfl hw hq em
    rwa [v0, vN] at this
  · intro hR n hnn time dt qmdt E st q hq
    subst hR
    exact C76_no_error hM rfl rfl hw hnn time dt qmdt E st hq

/-! ### Meshes without tags -/

/-- Where no facet is marked, the tracking loop moves no particle, deletes none, and ends only in the
cell that contains the end point. -/
theorem track_unmarked {h : g ≤ p} {M : Mesh K g} (hM : ∀ F, M.marker F = 0) {v : Variant}
    {bc : Int → τ → BCall K g p ρ → Except Err (τ × Part K p ρ)} :
    ∀ {n : Nat} {s s' : Trk K p τ ρ}, s.part.del = false → track h M v bc n s = .ok s' →
      s'.part.x = s.part.x ∧ s'.part.u = s.part.u ∧ s'.part.del = false ∧
      M.isInside (proj h s.part.x) s'.cell = .ok true := by
  intro n
  induction n with
  | zero =>
    intro s s' hd e
    unfold track at e
    cases hi : M.isInside (proj h s.part.x) s.cell with
    | error er => rw [hi] at e; cases e
    | ok b =>
      rw [hi] at e
      cases b
      · cases e
      · cases e; exact ⟨rfl, rfl, hd, hi⟩
  | succ n ih =>
    intro s s' hd e
    unfold track at e
    cases hi : M.isInside (proj h s.part.x) s.cell with
    | error er => rw [hi] at e; cases e
    | ok b =>
      rw [hi] at e
      cases b
      · simp only [bind, Except.bind, Bool.false_eq_true, if_false] at e
        cases hc : crossOnce h M v bc s with
        | error er => rw [hc] at e; cases e
        | ok r =>
          obtain ⟨s1, brk⟩ := r
          rw [hc] at e
          simp only at e
          have key : s1.part.x = s.part.x ∧ s1.part.u = s.part.u ∧ s1.part.del = false ∧ brk = false := by
            unfold crossOnce at hc
            simp only [bind, Except.bind, pure, Except.pure] at hc
            split at hc
            · cases hc
            · split at hc
              · cases hc
              · split at hc
                · cases hc
                · split at hc
                  · cases hc
                  · split at hc
                    · cases hc
                    · simp only [hM, ne_eq, not_true, if_false] at hc
                      unfold nextCell at hc
                      simp only [bind, Except.bind, pure, Except.pure] at hc
                      split at hc
                      · cases hc
                      · split at hc
                        · simp only [hd, Bool.false_eq_true, if_false] at hc
                          cases hc; exact ⟨rfl, rfl, rfl, rfl⟩
                        · cases hc; exact ⟨rfl, rfl, hd, rfl⟩
          obtain ⟨k1, k2, k3, k4⟩ := key
          subst k4
          simp only [Bool.false_eq_true, if_false] at e
          have := ih k3 e
          rwa [k1, k2] at this
      · cases e; exact ⟨rfl, rfl, hd, hi⟩

/-- C83 is false without tags, whatever callbacks the user has provided: a particle whose step would end
in no cell of the mesh makes the mover fail. -/
theorem C83_false_unmarked {h : g ≤ p} {M : Mesh K g} (hM : ∀ F, M.marker F = 0) (v : Variant)
    (bc : Int → τ → BCall K g p ρ → Except Err (τ × Part K p ρ)) (n : Nat) (time dt qom : K)
    (E : Part K p ρ → Option (Vec K p)) (st : τ × Vec K p) {q : Part K p ρ} (hd : q.del = false)
    (hout : ∀ ci, M.isInside (proj h (leap dt qom (E q) (kin q)).1) ci ≠ .ok true) :
    ∃ er, moveCharged h M v bc n time dt (qom * dt) false E st q = .error er := by
  cases hr : moveCharged h M v bc n time dt (qom * dt) false E st q with
  | error er => exact ⟨er, rfl⟩
  | ok r =>
    exfalso
    unfold moveCharged at hr
    simp only [Bool.false_eq_true, if_false, bind, Except.bind] at hr
    cases ht : track h M v bc n (startTrk time dt st.1 st.2 (moveBy dt (accelerate (qom * dt) (E q) q))) with
    | error er => rw [ht] at hr; cases hr
    | ok s =>
      have hdd : (startTrk time dt st.1 st.2 (moveBy dt (accelerate (qom * dt) (E q) q))).part.del = false := by
        cases hE : E q <;> exact hd
      have := (track_unmarked hM hdd ht).2.2.2
      refine hout s.cell ?_
      rw [← this]
      congr 2
      cases hE : E q <;> simp [leap, startTrk, moveBy, accelerate, kin]

/-- C83 is false on a Cartesian interval: `particle_boundary_dict` is accepted, but a particle that
leaves makes the mover fail, whatever the dictionary and the callbacks say. -/
theorem C83_false_interval {xmin xmax : K} (hx : xmin < xmax) {nx : Nat} (hn : 1 ≤ nx) (d : Dict)
    (v : Variant) (bc : Int → τ → BCall K 1 1 ρ → Except Err (τ × Part K 1 ρ)) (n : Nat) (time dt qom : K)
    (E : Part K 1 ρ → Option (Vec K 1)) (st : τ × Vec K 1) {q : Part K 1 ρ} (hd : q.del = false)
    (hout : (leap dt qom (E q) (kin q)).1 0 < xmin ∨ xmax < (leap dt qom (E q) (kin q)).1 0) :
    ∃ pm, createX xmin xmax nx none (some d) none = .ok ⟨none, some pm⟩ ∧
    ∃ er, moveCharged (le_refl 1) (lineMesh (gridPoint xmin xmax nx) nx (onLine nx pm)) v bc n time dt (qom * dt)
      false E st q = .error er := by
  refine ⟨fun _ => 0, rfl, C83_false_unmarked (fun F => ?_) v bc n time dt qom E st hd ?_⟩
  · show onLine nx (fun _ => 0) F = 0
    unfold onLine; split <;> rfl
  · intro ci hin
    have hn' : (0 : K) < nx := by exact_mod_cast hn
    have hpos : 0 < (xmax - xmin) / nx := div_pos (sub_pos.2 hx) hn'
    unfold Mesh.isInside Mesh.lookup at hin
    by_cases hci : 0 ≤ ci ∧ ci < nx
    · have hcell : (lineMesh (gridPoint xmin xmax nx) nx (onLine nx (fun _ => 0))).cell ci =
          some (lineCell (gridPoint xmin xmax nx) nx ci.toNat) := if_pos hci
      rw [hcell] at hin
      simp only [bind, Except.bind, pure, Except.pure, Except.ok.injEq] at hin
      have hreg : (lineCell (gridPoint xmin xmax nx) nx ci.toNat).Regular := lineCell_regular (by
        unfold gridPoint; push_cast; linarith)
      obtain ⟨h0, h1⟩ := (lineCell_has _).1 ((contains_iff hreg _).1 hin)
      have hp : proj (le_refl 1) (leap dt qom (E q) (kin q)).1 0 = (leap dt qom (E q) (kin q)).1 0 := rfl
      rw [hp] at h0 h1
      have b0 : xmin ≤ gridPoint xmin xmax nx ci.toNat := by
        unfold gridPoint
        have : (0 : K) ≤ (ci.toNat : K) * ((xmax - xmin) / nx) := mul_nonneg (Nat.cast_nonneg _) hpos.le
        linarith
      have b1 : gridPoint xmin xmax nx (ci.toNat + 1) ≤ xmax := by
        unfold gridPoint
        have hle : ((ci.toNat + 1 : Nat) : K) ≤ (nx : K) := by exact_mod_cast (by omega : ci.toNat + 1 ≤ nx)
        have h2 := mul_le_mul_of_nonneg_right hle hpos.le
        have h3 : (nx : K) * ((xmax - xmin) / nx) = xmax - xmin := by field_simp
        linarith
      rcases hout with ho | ho <;> linarith
    · have hcell : (lineMesh (gridPoint xmin xmax nx) nx (onLine nx (fun _ => 0))).cell ci = none := if_neg hci
      rw [hcell] at hin
      cases hin

/-! ### The hypotheses are met -/

/-- Reflect at `rmin`; by default, delete. -/
def wallCB : Callbacks (Unit × BCall ℚ 1 1 Nat → Except Err (Unit × Part ℚ 1 Nat)) := fun s =>
  if s = "bc_at_rmin_for_H" then some (fun a => bcReflect a.1 a.2)
  else if s = "default_bc" then some (fun a => bcAbsorb a.1 a.2) else none

example : GoodTags [("rmin", 1), ("rmax", 2)] :=
  ⟨by unfold IsDict; decide, by decide, by decide⟩

example : Provided wallCB "rmin" "H" (fun a => bcReflect a.1 a.2) ∧
    Provided wallCB "rmax" "H" (fun a => bcAbsorb a.1 a.2) ∧
    Provided wallCB "rmin" "He" (fun a => bcAbsorb a.1 a.2) :=
  ⟨.inl rfl, .inr (.inr ⟨rfl, rfl, rfl⟩), .inr (.inr ⟨rfl, rfl, rfl⟩)⟩

example : ActsLike true (fun a : Unit × BCall ℚ 1 1 Nat => bcReflect a.1 a.2) ∧
    ActsLike false (fun a : Unit × BCall ℚ 1 1 Nat => bcAbsorb a.1 a.2) :=
  ⟨fun st _ => ⟨st, rfl⟩, fun st _ => ⟨st, rfl⟩⟩

/-- A step of a particle on the shell from 1 to 2 with three cells, tags from `create_mesh` and callbacks
by name: position, velocity, lost. -/
def shellStep (sn : String) (r u : ℚ) (cell : Int) : Option (ℚ × ℚ × Bool) :=
  ((createRadial (K := ℚ) 3 none (some [("rmin", 1), ("rmax", 2)])).toOption.bind Marks.particle).bind fun pm =>
    (moveCharged (le_refl 1) (lineMesh (Radial.vertex 1 2 id 3) 3 (onLine 3 pm)) .charged
      (namedBC wallCB [("rmin", 1), ("rmax", 2)] ["H", "He"] sn) 100 1 1 1 false (fun _ => none) ((), ![0])
      (demoPart r u cell false)).toOption.map (fun a => (a.2.1.x 0, a.2.1.u 0, a.2.1.del))

example : shellStep "H" (3 / 2) (-3 / 4) 1 = some (5 / 4, 3 / 4, false) ∧
    shellStep "He" (3 / 2) (-3 / 4) 1 = some (3 / 4, -3 / 4, true) ∧
    shellStep "H" (3 / 2) 1 1 = some (5 / 2, 1, true) ∧
    shellStep "H" (3 / 2) (1 / 4) 1 = some (7 / 4, 1 / 4, false) := by decide +kernel

-- The same on the Cartesian interval: the particle that leaves raises RuntimeError.
example : (moveCharged (le_refl 1) (lineMesh (gridPoint 1 2 3) 3 (onLine 3 (fun _ => 0))) .charged
      (namedBC wallCB [("rmin", 1), ("rmax", 2)] ["H", "He"] "H") 100 1 1 1 false (fun _ => none) ((), ![0])
      (demoPart (3 / 2) 1 1 false)).map (fun _ => ()) = .error .sameFacet := by decide +kernel

end Dt
