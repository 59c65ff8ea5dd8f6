import Verif.Spec.Setup
import Verif.Lemmas.Species
import Verif.Props.Species

/-!
# Properties of the set-up (C79) and of particle records (C80)
-/

set_option linter.unusedSectionVars false

namespace Dt
namespace Setup
open Species (Dict Def Registry initSpecies)
open Spec (hasMover moverOf)
variable {K : Type} [Field K] [DecidableEq K]

/-! ### C79 -/

theorem getattrLib_eq (c : Coord) (charged : Bool) (n : Nat) (hn : n = 2 ∨ n = 3 ∨ n = 4) :
    getattrLib c (libName charged n) =
      if hasMover c charged n then .ok (.compiled c charged n) else .error .attribute := by
  rcases hn with rfl | rfl | rfl <;> cases c <;> cases charged <;> decide +kernel

theorem fillCpp_eq (c : Coord) (charged : Bool) (n : Nat) (hn : n = 2 ∨ n = 3 ∨ n = 4)
    (sns : List String) : ∀ d : Dict Mover, fillCpp (some c) charged n sns d =
      if sns = [] ∨ hasMover c charged n = true then
        .ok (sns.reverse.map (fun s => (s, Mover.compiled c charged n)) ++ d)
      else .error .attribute := by
  induction sns with
  | nil => intro d; simp [fillCpp]
  | cons s sns ih =>
    intro d
    simp only [fillCpp, getattrLib_eq c charged n hn]
    by_cases h : hasMover c charged n = true
    · simp only [h, if_true, or_true]
      rw [ih, if_pos (.inr h)]
      simp [Dict.put]
    · rw [if_neg h, if_neg (by simp [h])]

theorem fillPy_eq (name : String) (sns : List String) : ∀ d : Dict Mover, fillPy name sns d =
    sns.reverse.map (fun s => (s, Mover.python name)) ++ d := by
  induction sns with
  | nil => intro d; rfl
  | cons s sns ih => intro d; simp [fillPy, ih, Dict.put]

theorem lookup_const {V : Type} (l : List String) (v : V) (d : Dict V) (k : String) :
    List.lookup k (l.map (fun s => (s, v)) ++ d) = if k ∈ l then some v else List.lookup k d := by
  induction l with
  | nil => simp
  | cons a l ih =>
    simp only [List.map_cons, List.cons_append, List.lookup_cons, ih, List.mem_cons]
    by_cases h : k = a
    · simp [h]
    · have : (k == a) = false := by simpa using h
      simp [this, h]

/-- The set-up calls in their order. -/
def setUp (coord : Option String) (useCpp : Option Bool) (force : Option (List String))
    (defs : List (Def K)) (mesh : Option Nat) : Except Err (P K) := do
  let p ← construct coord useCpp force defs
  let p ← initMesh mesh p
  initIntegration p

theorem pickLibs_some (b : Bool) (c : Coord) (defs : List (Def K)) :
    pickLibs (some b) c defs = .ok (if b = true ∧ defs ≠ [] then some c else none) := by
  induction defs with
  | nil => simp [pickLibs]
  | cons d ds ih =>
    cases ds with
    | nil => cases b <;> rfl
    | cons d2 ds =>
      simp only [pickLibs]
      rw [ih]
      cases b <;> simp [pickLib]

/-- The species lists of a set-up, with their dictionary. -/
theorem lookup_movers (b : Bool) (c : Coord) (dim : Nat) {r : Registry K} (d : Def K)
    (hc : d.name ∈ r.charged ↔ d.charge ≠ 0) (hn : d.name ∈ r.neutral ↔ d.charge = 0) :
    List.lookup d.name (r.neutral.reverse.map (fun s => (s, moverOf b c dim false)) ++
      (r.charged.reverse.map (fun s => (s, moverOf b c dim true)) ++ [])) =
      some (moverOf b c dim (decide (d.charge ≠ 0))) := by
  rw [lookup_const, lookup_const]
  by_cases h : d.charge = 0
  · rw [if_pos (by simpa using hn.2 h)]
    simp [h]
  · rw [if_neg (by simpa using fun hh => h (hn.1 hh)), if_pos (by simpa using hc.2 h)]
    simp [h]

/-- **C79 (set-up).** For every coordinate system, list of species (with masses and distinct names)
and mesh.  With the Python movers the set-up succeeds and every species has the mover of its kind.
With the compiled movers it succeeds exactly if the mesh has 1, 2 or 3 dimensions and there is a
compiled mover for every kind of species that occurs; then every species has the one compiled for its
kind, its coordinate system and the number of facets of the cells.  Otherwise the set-up raises
AttributeError, before any particle is moved.  Missing, because the code makes it false: the set-up
succeeds in every case (see the `C79_false` theorems). -/
theorem C79_setup_partial (cs : String) (c : Coord) (hcs : parseCoord (some cs) = .ok c) (b : Bool)
    (force : Option (List String)) (defs : List (Def K)) (hne : defs ≠ [])
    (hm : ∀ d ∈ defs, d.mass ≠ 0) (hnd : (defs.map Def.name).Nodup) (dim : Nat) :
    (if b = false ∨ ((dim = 1 ∨ dim = 2 ∨ dim = 3) ∧
        ∀ d ∈ defs, hasMover c (decide (d.charge ≠ 0)) (dim + 1) = true) then
      ∃ p, setUp (some cs) (some b) force defs (some dim) = .ok p ∧ p.useCpp = b ∧
        p.arrays = force.isSome ∧
        p.reg.charged = (defs.filter (fun d => d.charge ≠ 0)).map Def.name ∧
        p.reg.neutral = (defs.filter (fun d => d.charge = 0)).map Def.name ∧
        ∀ d ∈ defs, integrator p d.name = .ok (moverOf b c dim (decide (d.charge ≠ 0)))
    else setUp (some cs) (some b) force defs (some dim) = .error .attribute) := by
  obtain ⟨r, e, -, hrc, hrn, hr, -⟩ := C43_species_tables defs hm hnd
  have hcon : construct (some cs) (some b) force defs = .ok
      ⟨c, r, b, if b = true then some c else none, force, none, false, none⟩ := by
    simp only [construct, hcs, e, pickLibs_some, bind, Except.bind, pure, Except.pure]
    cases b <;> simp [hne]
  simp only [setUp, hcon, bind, Except.bind]
  cases b with
  | false =>
    simp only [initMesh, Bool.false_eq_true, if_false, initIntegration, pure, Except.pure, true_or,
      if_true, bind, Except.bind, Bool.false_or]
    refine ⟨_, rfl, rfl, rfl, hrc, hrn, ?_⟩
    intro d hd
    simp only [integrator, Dict.get, fillPy_eq]
    have := lookup_movers false c dim (r := r) d (hr d hd).1 (hr d hd).2
    simp only [moverOf, Bool.false_eq_true, if_false, if_true] at this
    rw [this]
    simp [moverOf]
  | true =>
    simp only [initMesh, if_true, Bool.true_eq_false, false_or]
    by_cases hd : dim = 1 ∨ dim = 2 ∨ dim = 3
    · have hd' : dim + 1 = 2 ∨ dim + 1 = 3 ∨ dim + 1 = 4 := by omega
      simp only [if_pos hd', initIntegration, if_true, bind, Except.bind, pure, Except.pure,
        fillCpp_eq c _ _ hd', Bool.false_or]
      have hch : (∃ d ∈ defs, d.charge ≠ 0) ↔ r.charged ≠ [] := by
        rw [hrc]
        simp
      have hnt : (∃ d ∈ defs, d.charge = 0) ↔ r.neutral ≠ [] := by
        rw [hrn]
        simp
      by_cases h1 : r.charged = [] ∨ hasMover c true (dim + 1) = true
      · simp only [if_pos h1]
        by_cases h2 : r.neutral = [] ∨ hasMover c false (dim + 1) = true
        · simp only [if_pos h2]
          have hall : ∀ d ∈ defs, hasMover c (decide (d.charge ≠ 0)) (dim + 1) = true := by
            intro d hdm
            by_cases h0 : d.charge = 0
            · rcases h2 with h2 | h2
              · exact absurd h2 (hnt.1 ⟨d, hdm, h0⟩)
              · simpa [h0] using h2
            · rcases h1 with h1 | h1
              · exact absurd h1 (hch.1 ⟨d, hdm, h0⟩)
              · simpa [h0] using h1
          rw [if_pos ⟨hd, hall⟩]
          refine ⟨_, rfl, rfl, rfl, hrc, hrn, ?_⟩
          intro d hdm
          simp only [integrator, Dict.get]
          have := lookup_movers true c dim (r := r) d (hr d hdm).1 (hr d hdm).2
          simp only [moverOf, if_true] at this
          rw [this]
          simp [moverOf]
        · simp only [if_neg h2]
          rw [not_or] at h2
          obtain ⟨d, hdm, h0⟩ := hnt.2 h2.1
          have hno : ¬((dim = 1 ∨ dim = 2 ∨ dim = 3) ∧
              ∀ d ∈ defs, hasMover c (decide (d.charge ≠ 0)) (dim + 1) = true) := by
            rintro ⟨-, hall⟩
            have := hall d hdm
            simp only [h0, ne_eq, not_true_eq_false, decide_false] at this
            exact h2.2 this
          rw [if_neg hno]
          trivial
      · simp only [if_neg h1]
        rw [not_or] at h1
        obtain ⟨d, hdm, h0⟩ := hch.2 h1.1
        have hno : ¬((dim = 1 ∨ dim = 2 ∨ dim = 3) ∧
            ∀ d ∈ defs, hasMover c (decide (d.charge ≠ 0)) (dim + 1) = true) := by
          rintro ⟨-, hall⟩
          have := hall d hdm
          simp only [h0, ne_eq, not_false_eq_true, decide_true] at this
          exact h1.2 this
        rw [if_neg hno]
        trivial
    · rw [if_neg (by tauto), if_neg (by omega)]

/-- **C79 (coordinate systems).** The name of the coordinate system is accepted exactly if it is "cartesian_" or, for one radial
coordinate, "spherical_", followed by the position coordinates; otherwise, and without a name, `RuntimeError` is raised. -/
theorem C79_coordinates (cs : Option String) :
    (∀ c, parseCoord cs = .ok c ↔ cs = some ((if c = .r then "spherical_" else "cartesian_") ++ String.join c.position)) ∧
      ((∀ c, parseCoord cs ≠ .ok c) → parseCoord cs = .error .runtime) := by
  have e1 : (if Coord.x = .r then "spherical_" else "cartesian_") ++ String.join Coord.x.position = "cartesian_x" := by decide +kernel
  have e2 : (if Coord.r = .r then "spherical_" else "cartesian_") ++ String.join Coord.r.position = "spherical_r" := by decide +kernel
  have e3 : (if Coord.xy = .r then "spherical_" else "cartesian_") ++ String.join Coord.xy.position = "cartesian_xy" := by decide +kernel
  have e4 : (if Coord.xyz = .r then "spherical_" else "cartesian_") ++ String.join Coord.xyz.position = "cartesian_xyz" := by decide +kernel
  constructor
  · intro c
    constructor
    · intro h
      unfold parseCoord at h
      split at h
      · cases h; rw [e1]
      · cases h; rw [e2]
      · cases h; rw [e3]
      · cases h; rw [e4]
      · cases h
      · cases h
    · rintro rfl
      cases c
      · rw [e1]; rfl
      · rw [e2]; rfl
      · rw [e3]; rfl
      · rw [e4]; rfl
  · intro h
    unfold parseCoord at h ⊢
    split <;> first | rfl | simp at h

example : parseCoord (some "spherical_r") = .ok .r ∧ parseCoord (some "cylindrical_rz") = .error .runtime := by decide +kernel

/-- **C79 (calls).** After the set-up a call of `advance_charged_particles_in_E_field` (with a field,
and for compiled movers without an external one) applies the right mover once to every charged species
that has particles, in order, and to nothing else; likewise `advance_neutral_particles`. -/
theorem C79_calls (cs : String) (c : Coord) (hcs : parseCoord (some cs) = .ok c) (b : Bool)
    (force : Option (List String)) (defs : List (Def K)) (hne : defs ≠ [])
    (hm : ∀ d ∈ defs, d.mass ≠ 0) (hnd : (defs.map Def.name).Nodup) (dim : Nat) (p : P K)
    (hp : setUp (some cs) (some b) force defs (some dim) = .ok p) (count : String → Nat)
    (neg ext : Bool) (hf : b = true → neg = true ∧ ext = false) :
    advanceCharged count neg ext p p.reg.charged = .ok
      (((defs.filter (fun d => d.charge ≠ 0)).map Def.name).filter (fun s => count s ≠ 0) |>.map
        (fun s => (s, moverOf b c dim true))) ∧
    advanceNeutral count p p.reg.neutral = .ok
      (((defs.filter (fun d => d.charge = 0)).map Def.name).filter (fun s => count s ≠ 0) |>.map
        (fun s => (s, moverOf b c dim false))) := by
  have key := C79_setup_partial cs c hcs b force defs hne hm hnd dim
  split at key
  · obtain ⟨p', e, hb, -, hc, hn, hi⟩ := key
    rw [hp] at e
    cases e
    have ic : ∀ s ∈ (defs.filter (fun d => d.charge ≠ 0)).map Def.name,
        integrator p s = .ok (moverOf b c dim true) := by
      intro s hs
      simp only [List.mem_map, List.mem_filter, decide_eq_true_eq] at hs
      obtain ⟨d, ⟨hd, h0⟩, rfl⟩ := hs
      rw [hi d hd]
      simp [h0]
    have inn : ∀ s ∈ (defs.filter (fun d => d.charge = 0)).map Def.name,
        integrator p s = .ok (moverOf b c dim false) := by
      intro s hs
      simp only [List.mem_map, List.mem_filter, decide_eq_true_eq] at hs
      obtain ⟨d, ⟨hd, h0⟩, rfl⟩ := hs
      rw [hi d hd]
      simp [h0]
    rw [hc, hn]
    refine ⟨?_, ?_⟩
    · generalize (defs.filter (fun d => d.charge ≠ 0)).map Def.name = l at ic
      induction l with
      | nil => rfl
      | cons s l ih =>
        have ih := ih (fun t ht => ic t (by simp [ht]))
        simp only [advanceCharged, hb, ih, ic s (by simp), bind, Except.bind, pure, Except.pure]
        by_cases h0 : count s = 0
        · simp [h0]
        · cases b with
          | false => simp [h0]
          | true =>
            obtain ⟨h1, h2⟩ := hf rfl
            simp [h0, h1, h2]
    · generalize (defs.filter (fun d => d.charge = 0)).map Def.name = l at inn
      induction l with
      | nil => rfl
      | cons s l ih =>
        have ih := ih (fun t ht => inn t (by simp [ht]))
        simp only [advanceNeutral, ih, inn s (by simp), bind, Except.bind, pure, Except.pure]
        by_cases h0 : count s = 0
        · simp [h0]
        · simp [h0]
  · rw [hp] at key
    cases key

/-- **C79 (order of the calls).** Before `initialize_particle_integration`, on an object of any kind:
a mover call raises AttributeError as soon as a species of its kind has a particle, and
`record_trajectory_data` as soon as a charged particle has a trajectory; without such particles they
do nothing. -/
theorem C79_too_early (coord : Option String) (useCpp : Option Bool) (force : Option (List String))
    (defs : List (Def K)) (p : P K) (hp : construct coord useCpp force defs = .ok p)
    (mesh : Option Nat) (p' : P K) (hp' : p' = p ∨ initMesh mesh p = .ok p') (count : String → Nat)
    (neg ext : Bool) :
    advanceCharged count neg ext p' p'.reg.charged =
      (if ∃ s ∈ p'.reg.charged, count s ≠ 0 then .error .attribute else .ok []) ∧
    advanceNeutral count p' p'.reg.neutral =
      (if ∃ s ∈ p'.reg.neutral, count s ≠ 0 then .error .attribute else .ok []) ∧
    recordNeeds count p' p'.reg.charged =
      (if ∃ s ∈ p'.reg.charged, count s ≠ 0 then .error .attribute else .ok ()) := by
  have h0 : p.integrators = none ∧ p.arrays = false := by
    simp only [construct, bind, Except.bind, pure, Except.pure] at hp
    split at hp
    · cases hp
    split at hp
    · cases hp
    split at hp
    · cases hp
    cases hp
    exact ⟨rfl, rfl⟩
  have h1 : p'.integrators = none ∧ p'.arrays = false := by
    rcases hp' with rfl | h
    · exact h0
    · unfold initMesh at h
      split at h
      · cases h
      · split at h
        · split at h
          · cases h; exact h0
          · cases h
        · cases h; exact h0
  refine ⟨?_, ?_, ?_⟩
  · generalize p'.reg.charged = l
    induction l with
    | nil => simp [advanceCharged]
    | cons s l ih =>
      simp only [advanceCharged, ih]
      by_cases hs : count s = 0
      · simp [hs]
      · have hex : ∃ t ∈ s :: l, count t ≠ 0 := ⟨s, by simp, hs⟩
        simp only [if_neg hs, if_pos hex, integrator, h1.1, bind, Except.bind]
        split <;> rfl
  · generalize p'.reg.neutral = l
    induction l with
    | nil => simp [advanceNeutral]
    | cons s l ih =>
      simp only [advanceNeutral, ih]
      by_cases hs : count s = 0
      · simp [hs]
      · have hex : ∃ t ∈ s :: l, count t ≠ 0 := ⟨s, by simp, hs⟩
        simp only [if_neg hs, if_pos hex, integrator, h1.1, bind, Except.bind]
  · generalize p'.reg.charged = l
    induction l with
    | nil => simp [recordNeeds]
    | cons s l ih =>
      simp only [recordNeeds, ih, h1.2]
      by_cases hs : count s = 0
      · simp [hs]
      · simp [hs]

def oneElectron : List (Def ℚ) := [⟨"electron", -1, 1⟩]
def bothKinds : List (Def ℚ) := [⟨"electron", -1, 1⟩, ⟨"neutral_H", 0, 2⟩]
def oneNeutral : List (Def ℚ) := [⟨"neutral_H", 0, 2⟩]

/-- Non-vacuity: sets of species for which the set-up succeeds, in Python and compiled. -/
example : (∀ d ∈ bothKinds, d.mass ≠ 0) ∧ (bothKinds.map Def.name).Nodup ∧
    bothKinds ≠ [] ∧
    ((setUp (some "cartesian_xyz") (some false) none bothKinds (some 3)).toBool = true) ∧
    ((setUp (some "cartesian_xy") (some true) none bothKinds (some 2)).toBool = true) := by
  decide +kernel

/-- **C79 is false** for a neutral species in one dimension and for a charged one in three: there is
no compiled mover. -/
theorem C79_false_no_mover :
    (setUp (some "cartesian_x") (some true) none oneNeutral (some 1)).toOption.isSome = false ∧
    (setUp (some "spherical_r") (some true) none oneNeutral (some 1)).toOption.isSome = false ∧
    (setUp (some "cartesian_xyz") (some true) (some ["x", "y", "z"]) oneElectron (some 3)).toOption.isSome
      = false := by
  decide +kernel

/-- **C79 is false** for the order of calls in examples/sphere1D/sphere1D.py: the first
`record_trajectory_data` (line 1207) comes before `initialize_particle_integration` (line 1265), so
with a marked charged initial particle the program stops. -/
theorem C79_false_first_record (coord : Option String) (useCpp : Option Bool)
    (force : Option (List String)) (defs : List (Def K)) (p : P K)
    (hp : construct coord useCpp force defs = .ok p) (mesh : Option Nat) (p' : P K)
    (hp' : initMesh mesh p = .ok p') (live : String → Nat) (s : String) (hs : s ∈ p'.reg.charged)
    (hl : live s ≠ 0) : recordNeeds live p' p'.reg.charged = .error .attribute := by
  rw [(C79_too_early coord useCpp force defs p hp mesh p' (.inr hp') live true true).2.2,
    if_pos ⟨s, hs, hl⟩]

/-- **C79 is false** for compiled movers and an external field, or without a field: the call
raises. -/
theorem C79_false_fields (p : P K) (hc : p.useCpp = true) (count : String → Nat) (s : String)
    (sns : List String) (hs : count s ≠ 0) (m : Mover) (hm : integrator p s = .ok m) :
    (∀ ext, advanceCharged count false ext p (s :: sns) = .error .attribute) ∧
    advanceCharged count true true p (s :: sns) = .error .type := by
  constructor
  · intro ext
    simp [advanceCharged, hs, hc]
  · simp [advanceCharged, hs, hc, hm, bind, Except.bind]

/-! ### C80 -/

/-- **C80 (names).** For every coordinate system the NumPy names of the C++ record are the attribute
names of the Python record, in the same order; no name occurs twice. -/
theorem C80_names (c : Coord) : cppNames c = c.attributes ∧ c.attributes.Nodup ∧
    c.attributes.length = 3 * c.position.length + 5 := by
  cases c <;> decide +kernel

/-- **C80 (storing).** A tuple with numbers for the coordinates, initial coordinates, velocities and
weight and four integers is stored as the same record by the Python and the C++ container, whatever
the numbers; the tuple read back has these values, and so has the dictionary, under the names of the
attributes. -/
theorem C80_store (trunc : K → Int) (c : Coord) (fs : List (Val K))
    (hl : fs.length = 3 * c.position.length + 1) (b ci u cr : Int) :
    ∃ q, storePy trunc c (fs ++ [.i b, .i ci, .i u, .i cr]) = .ok q ∧
      storeCpp c (fs ++ [.i b, .i ci, .i u, .i cr]) = .ok q ∧
      q.asTuple = fs.map (fun v => .f v.float) ++ [.i b, .i ci, .i u, .i cr] ∧
      q.asDict c = c.attributes.zip (fs.map (fun v => .f v.float) ++ [.i b, .i ci, .i u, .i cr]) := by
  refine ⟨⟨fs.map Val.float, b, ci, u, cr⟩, ?_, ?_, ?_, ?_⟩
  · simp only [storePy]
    rw [List.drop_left' hl, List.take_left' hl]
    rfl
  · cases c
    · match fs, hl with
      | [_, _, _, _], _ => rfl
    · match fs, hl with
      | [_, _, _, _], _ => rfl
    · match fs, hl with
      | [_, _, _, _, _, _, _], _ => rfl
    · match fs, hl with
      | [_, _, _, _, _, _, _, _, _, _], _ => rfl
  · simp [Rec.asTuple]
  · simp [Rec.asTuple, Rec.asDict, (C80_names c).1, Function.comp_def]

/-- **C80 (copying).** A record read as a tuple and stored again is unchanged: moving particles
between containers of either kind loses nothing. -/
theorem C80_copy (trunc : K → Int) (c : Coord) (q : Rec K)
    (hl : q.floats.length = 3 * c.position.length + 1) :
    storePy trunc c q.asTuple = .ok q ∧ storeCpp c q.asTuple = .ok q := by
  obtain ⟨q', h1, h2, h3, -⟩ := C80_store trunc c (q.floats.map Val.f) (by simpa using hl)
    q.bitflags q.cellIndex q.uniqueID q.crossings
  have hq : q' = q := by
    have : q'.asTuple = q.asTuple := by
      rw [h3]
      simp [Rec.asTuple, Val.float, Function.comp_def]
    obtain ⟨f1, b1, c1, u1, x1⟩ := q'
    obtain ⟨f2, b2, c2, u2, x2⟩ := q
    simp only [Rec.asTuple] at this
    obtain ⟨ha, hb⟩ := List.append_inj' this rfl
    have : f1 = f2 := List.map_injective_iff.2 (fun _ _ h => by injection h) ha
    simp only [List.cons.injEq, Val.i.injEq, and_true] at hb
    simp [this, hb]
  subst hq
  exact ⟨h1, h2⟩

/-- **C80 (refused tuples, Python).** The Python container accepts a tuple exactly if it has one value
per attribute, and raises ValueError otherwise. -/
theorem C80_python_iff (trunc : K → Int) (c : Coord) (t : List (Val K)) :
    if t.length = c.attributes.length then ∃ q, storePy trunc c t = .ok q
    else storePy trunc c t = .error .value := by
  rw [(C80_names c).2.2]
  have hd : (t.drop (3 * c.position.length + 1)).length = t.length - (3 * c.position.length + 1) := by
    simp
  simp only [storePy]
  generalize t.drop (3 * c.position.length + 1) = r at hd ⊢
  split
  · rename_i h
    match r, hd with
    | [_, _, _, _], _ => exact ⟨_, rfl⟩
    | [], hd => simp at hd; omega
    | [_], hd => simp at hd; omega
    | [_, _], hd => simp at hd; omega
    | [_, _, _], hd => simp at hd; omega
    | _ :: _ :: _ :: _ :: _ :: _, hd => simp at hd; omega
  · rename_i h
    match r, hd with
    | [_, _, _, _], hd => simp at hd; omega
    | [], _ => rfl
    | [_], _ => rfl
    | [_, _], _ => rfl
    | [_, _, _], _ => rfl
    | _ :: _ :: _ :: _ :: _ :: _, _ => rfl

theorem bind_ok {α β : Type} {x : Except Err α} {f : α → Except Err β} {y : β} :
    (x >>= f) = .ok y ↔ ∃ a, x = .ok a ∧ f a = .ok y := by
  cases x <;> simp [bind, Except.bind]

theorem at_ok {t : List (Val K)} {i : Nat} {v : Val K} : at_ t i = .ok v ↔ t[i]? = some v := by
  unfold at_
  split <;> simp_all

theorem intCpp_ok {v : Val K} {n : Int} : v.intCpp = .ok n ↔ v = .i n := by
  cases v <;> simp [Val.intCpp]

/-- **C80 (refused tuples, C++).** The C++ container accepts a tuple exactly if it begins with one
value per attribute, the last four of which are integers; then it stores these and ignores the rest.
Missing, because the code makes it false: tuples with more values are refused, as in Python. -/
theorem C80_cpp_iff_partial (c : Coord) (t : List (Val K)) (q : Rec K) : storeCpp c t = .ok q ↔
    ∃ (fs : List (Val K)) (b ci u cr : Int) (rest : List (Val K)),
      fs.length = 3 * c.position.length + 1 ∧ t = fs ++ [.i b, .i ci, .i u, .i cr] ++ rest ∧
      q = ⟨fs.map Val.float, b, ci, u, cr⟩ := by
  constructor
  · intro h
    cases c
    all_goals
      simp only [storeCpp, setX, setXY, setXYZ, bind_ok, at_ok, intCpp_ok, pure, Except.pure,
        Except.ok.injEq] at h
    · obtain ⟨v0, h0, v1, h1, v2, h2, v3, h3, w, h4, b, rfl, w, h5, ci, rfl, w, h6, u, rfl, w, h7, cr,
        rfl, rfl⟩ := h
      match t, h0, h1, h2, h3, h4, h5, h6, h7 with
      | a0 :: a1 :: a2 :: a3 :: _ :: _ :: _ :: _ :: rest, h0, h1, h2, h3, h4, h5, h6, h7 =>
        simp at h0 h1 h2 h3 h4 h5 h6 h7
        subst h0 h1 h2 h3 h4 h5 h6 h7
        exact ⟨[a0, a1, a2, a3], b, ci, u, cr, rest, rfl, rfl, rfl⟩
    · obtain ⟨v0, h0, v1, h1, v2, h2, v3, h3, w, h4, b, rfl, w, h5, ci, rfl, w, h6, u, rfl, w, h7, cr,
        rfl, rfl⟩ := h
      match t, h0, h1, h2, h3, h4, h5, h6, h7 with
      | a0 :: a1 :: a2 :: a3 :: _ :: _ :: _ :: _ :: rest, h0, h1, h2, h3, h4, h5, h6, h7 =>
        simp at h0 h1 h2 h3 h4 h5 h6 h7
        subst h0 h1 h2 h3 h4 h5 h6 h7
        exact ⟨[a0, a1, a2, a3], b, ci, u, cr, rest, rfl, rfl, rfl⟩
    · obtain ⟨v0, h0, v1, h1, v2, h2, v3, h3, v4, h4, v5, h5, v6, h6, w, h7, b, rfl, w, h8, ci, rfl, w,
        h9, u, rfl, w, h10, cr, rfl, rfl⟩ := h
      match t, h0, h1, h2, h3, h4, h5, h6, h7, h8, h9, h10 with
      | a0 :: a1 :: a2 :: a3 :: a4 :: a5 :: a6 :: _ :: _ :: _ :: _ :: rest,
          h0, h1, h2, h3, h4, h5, h6, h7, h8, h9, h10 =>
        simp at h0 h1 h2 h3 h4 h5 h6 h7 h8 h9 h10
        subst h0 h1 h2 h3 h4 h5 h6 h7 h8 h9 h10
        exact ⟨[a0, a1, a2, a3, a4, a5, a6], b, ci, u, cr, rest, rfl, rfl, rfl⟩
    · obtain ⟨v0, h0, v1, h1, v2, h2, v3, h3, v4, h4, v5, h5, v6, h6, v7, h7, v8, h8, v9, h9, w, h10, b,
        rfl, w, h11, ci, rfl, w, h12, u, rfl, w, h13, cr, rfl, rfl⟩ := h
      match t, h0, h1, h2, h3, h4, h5, h6, h7, h8, h9, h10, h11, h12, h13 with
      | a0 :: a1 :: a2 :: a3 :: a4 :: a5 :: a6 :: a7 :: a8 :: a9 :: _ :: _ :: _ :: _ :: rest,
          h0, h1, h2, h3, h4, h5, h6, h7, h8, h9, h10, h11, h12, h13 =>
        simp at h0 h1 h2 h3 h4 h5 h6 h7 h8 h9 h10 h11 h12 h13
        subst h0 h1 h2 h3 h4 h5 h6 h7 h8 h9 h10 h11 h12 h13
        exact ⟨[a0, a1, a2, a3, a4, a5, a6, a7, a8, a9], b, ci, u, cr, rest, rfl, rfl, rfl⟩
  · rintro ⟨fs, b, ci, u, cr, rest, hl, rfl, rfl⟩
    cases c
    · match fs, hl with
      | [_, _, _, _], _ => rfl
    · match fs, hl with
      | [_, _, _, _], _ => rfl
    · match fs, hl with
      | [_, _, _, _, _, _, _], _ => rfl
    · match fs, hl with
      | [_, _, _, _, _, _, _, _, _, _], _ => rfl

/-- **C80 (distributions).** A list of particles is stored completely, in order, if every tuple has one
value per attribute; a single tuple of another length stops the program with ValueError. -/
theorem C80_distribution (trunc : K → Int) (c : Coord) (ts : List (List (Val K))) :
    if ∀ t ∈ ts, t.length = c.attributes.length then
      ∃ qs, storeAll trunc c ts = .ok qs ∧ List.Forall₂ (fun t q => storePy trunc c t = .ok q) ts qs
    else storeAll trunc c ts = .error .value := by
  unfold storeAll
  induction ts with
  | nil => exact ⟨[], rfl, .nil⟩
  | cons t ts ih =>
    have ht := C80_python_iff trunc c t
    rw [List.mapM_cons]
    split
    · rename_i h
      rw [if_pos (h t (by simp))] at ht
      rw [if_pos (fun t' h' => h t' (by simp [h']))] at ih
      obtain ⟨q, hq⟩ := ht
      obtain ⟨qs, hqs, hf⟩ := ih
      exact ⟨q :: qs, by simp [hq, hqs, bind, Except.bind, pure, Except.pure], .cons hq hf⟩
    · rename_i h
      by_cases h0 : t.length = c.attributes.length
      · rw [if_pos h0] at ht
        obtain ⟨q, hq⟩ := ht
        rw [if_neg (by
          intro hh
          apply h
          intro t' ht'
          rcases List.mem_cons.1 ht' with rfl | ht'
          · exact h0
          · exact hh t' ht')] at ih
        simp [hq, ih, bind, Except.bind]
      · rw [if_neg h0] at ht
        simp [ht, bind, Except.bind]

/-- A neutral particle as UserParticles_1D.py:76 makes it: no `crossings`. -/
def shippedNeutral : List (Val ℚ) := [.f 0, .f 0, .f 1, .f 1, .i 0, .i (-1), .i 0]

/-- **C80 is false** for a distribution that comes with the code: its tuples lack an attribute, and
creating the particles raises ValueError, whatever else is in the list. -/
theorem C80_false_shipped (trunc : ℚ → Int) (ts ts' : List (List (Val ℚ))) :
    storeAll trunc .x (ts ++ shippedNeutral :: ts') = .error .value := by
  have := C80_distribution trunc .x (ts ++ shippedNeutral :: ts')
  rwa [if_neg (fun h => absurd (h shippedNeutral (by simp)) (by decide))] at this

/-- **C80 is false** for tuples with too many values: in C++ they are stored. -/
theorem C80_false_long (trunc : ℚ → Int) : ∃ (t : List (Val ℚ)),
    (∃ q, storeCpp .x t = .ok q) ∧ storePy trunc .x t = .error .value :=
  ⟨[.f 0, .f 0, .f 1, .f 1, .i 0, .i 0, .i 0, .i 0, .f 5], ⟨_, rfl⟩, rfl⟩

/-- Non-vacuity of `C80_store`, `C80_copy`, `C80_distribution`. -/
example : (storePy (fun v : ℚ => v.floor) .r
      [.f 2, .i 2, .f (-1), .f 3, .i 1, .i 4, .i 7, .i 0]).toOption =
      some ⟨[2, 2, -1, 3], 1, 4, 7, 0⟩ ∧
    ((⟨[2, 2, -1, 3], 1, 4, 7, 0⟩ : Rec ℚ).asDict .r).lookup "ur" = some (.f (-1)) := by
  decide +kernel

end Setup
end Dt
