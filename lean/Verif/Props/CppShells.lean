import Verif.Model.CppNamed
import Verif.Spec.CppShells
import Verif.Props.CppPlasma
import Verif.Props.Shells
import Verif.Props.UserBC

/-!
# The compiled spherical simulation (C121)
-/

set_option linter.unusedSectionVars false

namespace Dt
open Spec Poisson Mark Radial
open TimeLoop (Cfg Src GoodMesh AllOf)
open CppLoop (GoodEvery)
variable {K V : Type} [Field K] [LinearOrder K] [IsStrictOrderedRing K] {ρ τ : Type}

section
variable {x : Nat → K} {N : Nat} {eps : K} {co : Coord} {v0 : Val K} {vN : K} {σ : Type}

/-- The field of a state whose particles are in their cells: it is that of the particles, and the field data hold its
values. -/
theorem line_state_field {cfg : Cfg K V (Part K 1 ρ) σ (List K)} {fmarker : Nat → Int} {s : Solver K} {d : Nat → Nat} {C : Nat}
    (hel : Electro cfg x N fmarker s d C) {lo hi : Int} {dd : List (String × Int × Val K)}
    (he : 0 < eps) (hg : Grid co x N) (hmk : Spec.Marks fmarker N lo hi) (hd : Given co dd lo hi v0 vN)
    (hs : create eps co x N fmarker dd = .ok s) {pops : List (Pop K V (Part K 1 ρ))}
    (hon : ∀ p ∈ pops, ∀ q ∈ p.st.items, inLine x N q = true) :
    ∃ F, IsField eps co x N v0 vN (chargesOf cfg.A.weight (cfg.factor.getD 1) pops) F ∧
      ∀ c, F c = -((cfg.fieldOf (potential cfg (N + 1) pops)).getD c 0) := by
  have hl := hel.onLine
  obtain ⟨s', hs', hpot⟩ := C89_potential he hg hmk hd
  rw [hs] at hs'
  cases hs'
  have hQ : ((List.range (N + 1)).map (fun k => chargeAt cfg pops k * cfg.factor.getD 1)).length = N + 1 := by simp
  have hE := (hpot _ hQ).2 (potential cfg (N + 1) pops) (by
    unfold potential
    rw [hl.bc]
    exact hl.solve _ ((applyVec_length _ _).trans hQ))
  have hget : ∀ k ≤ N, ((List.range (N + 1)).map (fun k => chargeAt cfg pops k * cfg.factor.getD 1)).getD k 0 =
      ((pointCharges cfg (fun q => q.x 0) pops).map (fun q => q.1 * lam x q.2.2 q.2.1 k)).sum := by
    intro k hk
    rw [List.getD_eq_getElem?_getD, List.getElem?_map, List.getElem?_range (by omega)]
    exact charge_points hl pops k
  refine ⟨eField (negE x N (potential cfg (N + 1) pops)), ?_, fun c => by rw [hel.field]; rfl⟩
  rw [chargesOf_eq]
  refine isField_of (phi := potential cfg (N + 1) pops) hg (points_located hl hon) ?_
  refine ⟨hE.high, hE.low, hE.gradient, fun a b hab hb => (hE.gauss a b hab hb).trans ?_, fun hu c hc => (hE.enclosed hu c hc).trans ?_⟩
  · exact Finset.sum_congr rfl fun k hk => hget k (by have := (Finset.mem_Ioc.1 hk).2; omega)
  · exact Finset.sum_congr rfl fun k hk => hget k (by have := Finset.mem_range.1 hk; omega)

/-- What the compiled mover does to a particle in its cell, between walls. -/
theorem cpp_walled {marker : Int → Int} (hM : (lineMesh x N marker).Conforming) (hx : ∀ i, i < N → x i < x (i + 1))
    {LC : Layout K 1} (hLC : LC.Right) {L : Bool}
    {bc : String → Int → τ → BCall K 1 1 ρ → Except Err (τ × Part K 1 ρ)} {sn : String}
    {bc' : Int → τ → BCall K 1 1 ρ → Except Err (τ × Part K 1 ρ)} (hb : WallBC marker N L false bc')
    (hbb : ∀ value st call r, bc sn value st call = .ok r → bc' value st call = .ok r) (hk : KeepsCell (bc sn))
    {maxCross : Nat} {dt : K} {qom : String → K} {φ : Type} {E : String → φ → Part K 1 ρ → Option (Vec K 1)}
    {f : φ} {c : Int} {t : K} {st st' : (τ × Vec K 1) × Scratch K} {i o : Int} {ic : Bool}
    {q q' : Part K 1 ρ} {k : Bool} (hq : Present (le_refl 1) (lineMesh x N marker) q)
    (e : CppLoop.cppMove (le_refl 1) LC (lineCpp x N marker) bc maxCross dt qom E sn f c t st i o ic q = .ok (st', q', k)) :
    kin q' = (if L then folded (x 0) (leap dt (qom sn) (E sn f q) (kin q)) else leap dt (qom sn) (E sn f q) (kin q)) ∧
      k = decide (x 0 ≤ (kin q').1 0 ∧ (kin q').1 0 ≤ x N) ∧ (k = true → Present (le_refl 1) (lineMesh x N marker) q') := by
  have hab : x 0 ≤ x N := grid_up hx (Nat.zero_le _) (le_refl _)
  have hsim := C109_movers (C66_interval_mesh (marker := marker) hx) (le_refl 1) hLC (bcC := bc) (bcP := bc)
    (fun _ _ _ _ _ => Iff.rfl) maxCross dt qom E sn f c t st st.1 i o ic q rfl
  obtain ⟨st2, e2, -⟩ := hsim.1 _ _ e
  have hkeep := pyMove_keeps (h := le_refl 1) (M := lineMesh x N marker) (bc := bc) (maxCross := maxCross) (dt := dt)
    (qom := qom) (E := E) (sn := sn) hk (Q := fun _ => True) (f := f) (c := c) (t := t) (fun _ _ _ _ _ => trivial)
  have hk' := (hkeep st.1 i o ic q hq).1
  unfold pyMove plainAdv at e2
  cases em : moveCharged (le_refl 1) (lineMesh x N marker) .charged (bc sn) maxCross t dt (qom sn * dt) false (E sn f) st.1 q with
  | error e' => rw [em] at e2; cases e2
  | ok r =>
    obtain ⟨st3, q3, evs⟩ := r
    rw [em] at e2
    simp only [bind, Except.bind, pure, Except.pure, Except.ok.injEq, Prod.mk.injEq] at e2
    obtain ⟨rfl, rfl, rfl⟩ := e2
    obtain ⟨k1, k2⟩ := bounces_walled hab (C76_particle hM rfl rfl hb hq (moveCharged_mono hbb em))
    refine ⟨k1, ?_, ?_⟩
    · rw [k2, Bool.not_not]
    · intro hdel
      refine hk' st3 q3 ?_
      unfold pyMove plainAdv
      rw [em]
      simp only [bind, Except.bind, pure, Except.pure, hdel]

/-- Without failure. -/
theorem cpp_walled_ok {marker : Int → Int} (hM : (lineMesh x N marker).Conforming) (hx : ∀ i, i < N → x i < x (i + 1))
    {LC : Layout K 1} (hLC : LC.Right) {L : Bool}
    {bc : String → Int → τ → BCall K 1 1 ρ → Except Err (τ × Part K 1 ρ)} {sn : String}
    (hb : WallBC marker N L false (bc sn)) (hk : KeepsCell (bc sn))
    {maxCross : Nat} (hmax : 2 * N ≤ maxCross) (dt : K) (qom : String → K) {φ : Type} (E : String → φ → Part K 1 ρ → Option (Vec K 1))
    (f : φ) (c : Int) (t : K) (st : (τ × Vec K 1) × Scratch K) (i o : Int) (ic : Bool)
    {q : Part K 1 ρ} (hq : Present (le_refl 1) (lineMesh x N marker) q) :
    ∃ st' q' k, CppLoop.cppMove (le_refl 1) LC (lineCpp x N marker) bc maxCross dt qom E sn f c t st i o ic q = .ok (st', q', k) ∧
      (k = true → Present (le_refl 1) (lineMesh x N marker) q') := by
  have hsim := C109_movers (C66_interval_mesh (marker := marker) hx) (le_refl 1) hLC (bcC := bc) (bcP := bc)
    (fun _ _ _ _ _ => Iff.rfl) maxCross dt qom E sn f c t st st.1 i o ic q rfl
  obtain ⟨⟨st2, q', evs⟩, hr⟩ := C76_no_error hM (v := .charged) rfl rfl hb hmax t dt (qom sn * dt) (E sn f) st.1 hq
  have hp : pyMove (le_refl 1) (lineMesh x N marker) bc maxCross dt qom E sn f c t st.1 i o ic q = .ok (st2, q', !q'.del) := by
    unfold pyMove plainAdv
    rw [hr]
    rfl
  obtain ⟨st1, e1, -⟩ := hsim.2 _ _ hp
  exact ⟨st1, q', _, e1, fun hk'' => (cpp_walled hM hx hLC hb (fun _ _ _ _ h => h) hk hq e1).2.2 hk''⟩

end

/-- The order of the entries does not matter if the tags are different. -/
theorem invName_perm {d d' : List (String × Int)} (hp : d'.Perm d) (hn : (d.map Prod.snd).Nodup) (t : Int) :
    invName d' t = invName d t := by
  have key : ∀ {l : List (String × Int)} {n : String}, (l.map Prod.snd).Nodup → (invName l t = some n ↔ (n, t) ∈ l) := by
    intro l n hl
    constructor
    · intro h
      unfold invName at h
      cases hf : l.reverse.find? (fun e => e.2 == t) with
      | none => rw [hf] at h; cases h
      | some e =>
        rw [hf] at h
        cases h
        have h1 := List.find?_some hf
        have h2 := List.mem_of_find?_eq_some hf
        rw [List.mem_reverse] at h2
        have : e.2 = t := by simpa using h1
        rw [← this]
        exact h2
    · intro h
      exact invName_of (tagOf_of hl h)
  have hn' : (d'.map Prod.snd).Nodup := ((hp.map Prod.snd).nodup_iff).2 hn
  cases h : invName d t with
  | none =>
    cases h' : invName d' t with
    | none => rfl
    | some n =>
      have := (key hn).2 (hp.subset ((key hn').1 h'))
      rw [h] at this
      cases this
  | some n => exact (key hn').2 (hp.symm.subset ((key hn).1 h))

/-- The constructor of the compiled code finds a function for every boundary and species, and the table is that of
Python. -/
theorem spherical_table {pd sorted : Dict} (hg : GoodTags pd) (hp : sorted.Perm pd) (species : List String) :
    ∃ tab, cppBcDict (acting (K := K) (g := 1) (τ := τ) (ρ := ρ) cppSphericalR) sorted species = .ok tab ∧
      ∀ sn ∈ species, ∀ tag st call, tableBC tab sn tag st call =
        namedBC (acting cppSphericalR) pd species sn tag st call := by
  have hch : ∀ b sp, chooseBC (acting (K := K) (g := 1) (τ := τ) (ρ := ρ) cppSphericalR) b sp =
      some (if b = "rmin" then Act.reflect.run else Act.absorb.run) := by
    intro b sp
    rw [chooseBC_acting, C106_cpp_spherical]
    split <;> rfl
  refine ⟨_, if_pos ?_, ?_⟩
  · rw [List.all_eq_true]
    intro e _
    rw [List.all_eq_true]
    intro sp _
    cases invName sorted e.2 with
    | none => rfl
    | some b => simp only [hch]; rfl
  · intro sn hsn tag st call
    unfold tableBC namedBC callBC bcDict
    dsimp only
    rw [invName_perm hp hg.inj]
    cases invName pd tag with
    | none => rfl
    | some b => simp only [if_pos hsn, hch]

theorem wallBC_congr {marker : Int → Int} {N : Nat} {L R : Bool} {bc bc' : Int → τ → BCall K 1 1 ρ → Except Err (τ × Part K 1 ρ)}
    (h : WallBC marker N L R bc) (he : ∀ tag st call, bc' tag st call = bc tag st call) : WallBC marker N L R bc' := by
  have : bc' = bc := by funext t s c; exact he t s c
  rw [this]
  exact h

section
variable {rmin rmax eps : K} {pw : K → K} {nr : Nat} {v0 : Val K} {vN : K}

/-- **C121.** The compiled spherical example, from the choices of the user to the motion of the particles.  A radial
mesh (inner radius not negative, any number of cells, any stretching) with tags for the boundaries of the field and of
the particles, the boundary functions of cpp/UPBFs_spherical_r.h, the potential given at `rmax`, and given or
`'unset'` at `rmin`:

* the table of boundary functions and the solver are made;
* from each state of a simulation to the next, every charged particle makes a leapfrog step in the electric field
  of all particles present, which follows from Gauss's law, is reflected at the inner radius and lost beyond the outer
  one, and the particles of sources are added; nothing else happens to the particles;
* if the number of cells is at most half of the limit of crossings, a program without sources runs to its end, also
  if species lose all their particles. -/
theorem C121_sphere (hpw : PowLike pw) (h0 : 0 ≤ rmin) (hrr : rmin < rmax) (hnr : 0 < nr)
    {fd pd sorted : Dict} (hfd : GoodTags fd) (hpd : GoodTags pd) (hsort : sorted.Perm pd) {fa fb pa pb : Int}
    (h1 : ("rmin", fa) ∈ fd) (h2 : ("rmax", fb) ∈ fd) (h3 : ("rmin", pa) ∈ pd) (h4 : ("rmax", pb) ∈ pd)
    {ms : Mark.Marks Nat} (e : createRadial (K := K) nr (some fd) (some pd) = .ok ms) (species : List String)
    (he : 0 < eps) {dd : List (String × Int × Val K)} (hd : Given .spherical dd fa fb v0 vN) :
    ∃ fm pm tab s, ms = ⟨some fm, some pm⟩ ∧
      cppBcDict (acting (K := K) (g := 1) (τ := τ) (ρ := ρ) cppSphericalR) sorted species = .ok tab ∧
      create eps .spherical (vertex rmin rmax pw nr) nr fm dd = .ok s ∧
      ∀ {maxCross : Nat} {qom : String → K} {cfg : Cfg K V (Part K 1 ρ) ((τ × Vec K 1) × Scratch K) (List K)},
        cfg.move = CppLoop.cppMove (le_refl 1) layoutX (lineCpp (vertex rmin rmax pw nr) nr (onLine nr pm)) (tableBC tab) maxCross
          cfg.dt qom (fun _ f q => some (fun _ => -(f.getD q.cell.toNat 0))) →
        (∀ s ∈ cfg.sources, ∀ count time side side' xs, s.make count time side = .ok (side', xs) → ∀ q ∈ xs,
          Present (le_refl 1) (lineMesh (vertex rmin rmax pw nr) nr (onLine nr pm)) q) →
        ∀ {d : Nat → Nat} {C sl : Nat}, Electro cfg (vertex rmin rmax pw nr) nr fm s d C → 2 ≤ sl → GoodEvery cfg →
        ∀ {skip : Int}, skip ≠ 0 → ∀ (n : Nat) {init : Option (List (String × List (Part K 1 ρ)))},
        InitPresent (le_refl 1) (lineMesh (vertex rmin rmax pw nr) nr (onLine nr pm)) init →
        ∀ {st : CppLoop.State K V (Part K 1 ρ) ((τ × Vec K 1) × Scratch K) (List K)}
          {i : Ideal K V (Part K 1 ρ) ((τ × Vec K 1) × Scratch K)} {b : List K},
        CppLoop.Fresh sl (nr + 1) C skip st i b → (i.pops.map (·.name)).Nodup → (st.file = none → cfg.partEvery = none) →
        (∀ pop ∈ i.pops, pop.name ∈ species) →
        (∀ {i0 : Ideal K V (Part K 1 ρ) ((τ × Vec K 1) × Scratch K)} {is : List (Ideal K V (Part K 1 ρ) ((τ × Vec K 1) × Scratch K))},
          Comp.run cfg sl (nr + 1) (inLine (vertex rmin rmax pw nr) nr) init b n i = .ok (i0, is) →
          (i0 :: is).IsChain (Comp.FieldStep eps .spherical (vertex rmin rmax pw nr) nr v0 vN (fun _ => true) qom cfg sl) ∧
          (∀ j ∈ i0 :: is, ∀ pop ∈ j.pops, ∀ q ∈ pop.st.items, rmin ≤ q.x 0 ∧ q.x 0 ≤ rmax) ∧
          ∃ st', CppLoop.run cfg init n st = .ok st' ∧ CppOutcome Eq cfg d C skip init.isSome b st st' i0 is) ∧
        (2 * nr ≤ maxCross → cfg.sources = [] →
          (∀ gs, init = some gs → (gs.map (·.2.length)).sum < 4294967296 ∧ ∀ a ∈ gs, a.1 ∈ i.pops.map (·.name)) →
          ∃ i0 is, Comp.run cfg sl (nr + 1) (inLine (vertex rmin rmax pw nr) nr) init b n i = .ok (i0, is)) := by
  have g1 := hfd.pos _ h1
  have g2 := hfd.pos _ h2
  have g3 := hpd.pos _ h3
  have g4 := hpd.pos _ h4
  obtain ⟨fm, pm, hc, ht, -, -, -⟩ := C82_radial (K := K) hnr hfd.keys hpd.keys h1 h2 h3 h4 g1.le g2.le g3.le g4.le
  rw [hc] at e
  have hms : ms = ⟨some fm, some pm⟩ := by cases e; rfl
  obtain ⟨v0', vN', vlt, hcf⟩ := C49_radial_mesh hpw hrr hnr
  have hne : fa ≠ fb := by
    intro h
    subst h
    have := (List.inj_on_of_nodup_map hfd.inj) h1 h2 rfl
    simp at this
  have hmk : Spec.Marks fm nr fa fb := C89_marks hfd.keys ht (by simp [unitVertex])
    (by unfold unitVertex; exact div_self (by exact_mod_cast (by omega : nr ≠ 0))) h1 h2 hne g1.ne' g2.ne'
  have hg : Grid .spherical (vertex rmin rmax pw nr) nr := ⟨hnr, vlt, fun _ => by rw [v0']; exact h0⟩
  obtain ⟨s, hs, -⟩ := C89_potential he hg hmk hd
  obtain ⟨tab, htab, hcall⟩ := spherical_table (K := K) (τ := τ) (ρ := ρ) hpd hsort species
  refine ⟨fm, pm, tab, s, hms, htab, hs, ?_⟩
  intro maxCross qom cfg hmove hsrc d C sl hel h2sl hgc skip hskip n init hinit st i b hf hn hnone hsp
  -- the walls
  have hw : ∀ sn, onLine nr pm 0 ≠ 0 ∧ onLine nr pm nr ≠ 0 ∧
      WallBC (onLine nr pm) nr true false (namedBC (acting (K := K) (τ := τ) (ρ := ρ) cppSphericalR) pd [sn] sn) := by
    intro sn
    obtain ⟨pm', hpm', k0, kN, -, -, -, hw⟩ := C83_named_walls (K := K) (τ := τ) (ρ := ρ) (fo := some fd) hnr hpd h3 h4 hc
      (cb := acting cppSphericalR) (species := [sn]) (sn := sn) (by simp)
      (provided_of (a := .reflect) (by rw [C106_cpp_spherical]; simp)) (provided_of (a := .absorb) (by rw [C106_cpp_spherical]; simp))
      acts_reflect acts_absorb
    simp only [Option.some.injEq] at hpm'
    subst hpm'
    exact ⟨k0, kN, hw⟩
  have hM : (lineMesh (vertex rmin rmax pw nr) nr (onLine nr pm)).Conforming := hcf _ (hw "H").1 (hw "H").2.1
  have hsame : ∀ sn ∈ species, ∀ tag st call, tableBC tab sn tag st call = namedBC (acting cppSphericalR) pd [sn] sn tag st call := by
    intro sn hsn tag st call
    rw [hcall sn hsn]
    unfold namedBC callBC bcDict
    cases invName pd tag with
    | none => rfl
    | some b => simp only [if_pos hsn, List.mem_singleton, if_true]
  have hnot : ∀ sn ∉ species, ∀ tag st call r, tableBC tab sn tag st call ≠ .ok r := by
    intro sn hsn tag st call r h
    have := (C40_cpp_agrees (acting (K := K) (g := 1) (τ := τ) (ρ := ρ) cppSphericalR) (fun _ => rfl) htab tag sn).2.2 (fun hh => hsn hh.2)
    unfold tableBC at h
    rw [this] at h
    cases h
  have hbb : ∀ sn value st call r, tableBC tab sn value st call = .ok r →
      namedBC (acting cppSphericalR) pd [sn] sn value st call = .ok r := by
    intro sn value st call r h
    by_cases hsn : sn ∈ species
    · rw [← hsame sn hsn]; exact h
    · exact absurd h (hnot sn hsn _ _ _ _)
  have hkc : ∀ sn, KeepsCell (tableBC tab sn) := by
    intro sn tag st call st' q' h
    refine namedBC_keepsCell ?_ pd [sn] sn tag st call st' q' (hbb sn tag st call _ h)
    intro name f hf a st' q' hfa
    unfold acting at hf
    cases hc' : cppSphericalR name with
    | none => rw [hc'] at hf; cases hf
    | some act =>
      rw [hc'] at hf
      cases hf
      cases act with
      | absorb => cases hfa; rfl
      | nothing => cases hfa; rfl
      | reflect =>
        simp only [Act.run, bcReflect] at hfa
        split at hfa
        · cases hfa
        · cases hfa; rfl
  refine ⟨?_, ?_⟩
  · intro i0 is hr
    have key := C109_run h2sl hgc hel.goodMesh hskip n init hf hnone
    rw [hr] at key
    obtain ⟨-, st', e2, ho⟩ := key
    obtain ⟨k1, k2, k3, k4⟩ := CppPlasma.run_filter (P := Present (le_refl 1) (lineMesh (vertex rmin rmax pw nr) nr (onLine nr pm))) kin
      (fun sn f q => folded (vertex rmin rmax pw nr 0) (leap cfg.dt (qom sn) (some (fun _ => -(List.getD f q.cell.toNat 0))) (kin q)))
      (fun k => decide (vertex rmin rmax pw nr 0 ≤ k.1 0 ∧ k.1 0 ≤ vertex rmin rmax pw nr nr))
      (fun sn f c t st i o b x st' y k hx ex => by
        rw [hmove] at ex
        obtain ⟨a1, a2, a3⟩ := cpp_walled hM vlt C66_layouts.1 (hw sn).2.2 (hbb sn) (hkc sn) hx ex
        exact ⟨a1, by rw [a2, a1]; rfl, a3⟩)
      hsrc hinit hf.empty hn hr
    have hin : ∀ j ∈ i0 :: is, ∀ pop ∈ j.pops, ∀ q ∈ pop.st.items, inLine (vertex rmin rmax pw nr) nr q = true :=
      fun j hj pop hp q hq => inLine_of hM (k1 j hj pop hp q hq)
    have hcell : ∀ j ∈ i0 :: is, ∀ pop ∈ j.pops, ∀ q ∈ pop.st.items, q.cell.toNat < nr ∧
        vertex rmin rmax pw nr q.cell.toNat ≤ q.x 0 ∧ q.x 0 ≤ vertex rmin rmax pw nr (q.cell.toNat + 1) := by
      intro j hj pop hp q hq
      obtain ⟨b1, b2, b3, b4⟩ := of_decide_eq_true (hin j hj pop hp q hq)
      exact ⟨by omega, b3, b4⟩
    refine ⟨?_, ?_, st', e2, ho⟩
    rotate_left
    · intro j hj pop hp q hq
      obtain ⟨b1, b2, b3⟩ := hcell j hj pop hp q hq
      have w1 := (grid_up vlt (Nat.zero_le _) b1.le).trans b2
      have w2 := b3.trans (grid_up vlt (show q.cell.toNat + 1 ≤ nr by omega) (le_refl _))
      rw [v0'] at w1
      rw [vN'] at w2
      exact ⟨w1, w2⟩
    have hfield : ∀ j ∈ i0 :: is, ∃ F, IsField eps .spherical (vertex rmin rmax pw nr) nr v0 vN (chargesOf cfg.A.weight (cfg.factor.getD 1) j.pops) F ∧
        ∀ pop ∈ j.pops, ∀ q ∈ pop.st.items, F q.cell.toNat = -((cfg.fieldOf j.phi).getD q.cell.toNat 0) := by
      intro j hj
      obtain ⟨F, hF1, hF2⟩ := line_state_field hel he hg hmk hd hs (hin j hj)
      refine ⟨F, hF1, ?_⟩
      by_cases hj' : j ∈ (if init.isSome then [i0] else []) ++ is
      · rw [k3 j hj']
        exact fun pop _ q _ => hF2 _
      · rcases List.mem_cons.1 hj with rfl | hj
        · cases hi : init with
          | some gs => exact absurd (by rw [hi]; simp) hj'
          | none =>
            intro pop hp q hq
            rw [k2 hi pop hp] at hq
            cases hq
        · exact absurd (List.mem_append_right _ hj) hj'
    clear k3 hr ho e2
    have key : ∀ Ls : List (Ideal K V (Part K 1 ρ) ((τ × Vec K 1) × Scratch K)), (∀ j ∈ Ls, j ∈ i0 :: is) →
        Ls.IsChain (fun i j => j.count = i.count + 1 ∧ j.time = i.time + cfg.dt ∧
          List.Forall₂ (fun s s' => s'.name = s.name ∧ s'.charge = s.charge ∧ s'.mass = s.mass ∧ s'.index = s.index ∧
            s'.st.items.map kin = (if s.charge = 0 then s.st.items.map kin
              else (s.st.items.map ((fun sn (f : List K) (q : Part K 1 ρ) =>
                folded (vertex rmin rmax pw nr 0) (leap cfg.dt (qom sn) (some (fun _ => -(List.getD f q.cell.toNat 0))) (kin q))) s.name
                  (cfg.fieldOf i.phi))).filter (fun k => decide (vertex rmin rmax pw nr 0 ≤ k.1 0 ∧ k.1 0 ≤ vertex rmin rmax pw nr nr))) ++
              (Spec.Comp.made cfg sl s.name i).map kin) i.pops j.pops) →
        Ls.IsChain (Comp.FieldStep eps .spherical (vertex rmin rmax pw nr) nr v0 vN (fun _ => true) qom cfg sl) := by
      intro Ls
      induction Ls with
      | nil => intro _ _; exact .nil
      | cons a Ls ih =>
        intro hF hLs
        cases Ls with
        | nil => simp
        | cons a2 Ls =>
          rw [List.isChain_cons_cons] at hLs ⊢
          refine ⟨?_, ih (fun j hj => hF j (by simp [hj])) hLs.2⟩
          have ha := hF a (by simp)
          obtain ⟨F, hE1, hE2⟩ := hfield a ha
          obtain ⟨m1, m2, m4⟩ := hLs.1
          refine ⟨m1, m2, fun q => q.cell.toNat, hcell a ha, F, hE1, ?_⟩
          clear hE1
          generalize a.pops = l at m4 hE2
          generalize a2.pops = l' at m4
          induction m4 with
          | nil => exact .nil
          | @cons p p' ps ps' h1 _ ih2 =>
            refine .cons ?_ (ih2 (fun pop hp => hE2 pop (by simp [hp])))
            obtain ⟨e1, e2, e3, e4, e5⟩ := h1
            refine ⟨e1, e2, e3, e4, ?_⟩
            rw [e5]
            congr 2
            congr 1
            refine List.map_congr_left fun q hq => ?_
            simp only [walledLeap, if_true, hE2 p (by simp) q hq]
    exact key _ (fun j hj => hj) k4
  · intro hmax hns hbig
    obtain ⟨st', i0, is, -, hr, -⟩ := C109_ends_normally h2sl hgc hel.goodMesh hskip n
      (P := Present (le_refl 1) (lineMesh (vertex rmin rmax pw nr) nr (onLine nr pm))) (fun q hq => inLine_of hM hq) hns
      (fun sn hsn f c t st i o ic q hq => by
        rw [hmove]
        have hsn' : sn ∈ species := by
          obtain ⟨pop, hpop, rfl⟩ := List.mem_map.1 hsn
          exact hsp pop hpop
        exact cpp_walled_ok hM vlt C66_layouts.1 (wallBC_congr (hw sn).2.2 (hsame sn hsn')) (hkc sn) hmax cfg.dt qom _ f c t st i o ic hq)
      hf hnone (fun gs hgs => ⟨(hbig gs hgs).1, fun a ha => ⟨(hbig gs hgs).2 a ha, fun q hq => hinit gs hgs a ha q hq⟩⟩)
    exact ⟨i0, is, hr⟩

end

/-! ### A sphere of two cells -/

/-- The table of boundary functions for the tags of `ballPd`, in alphabetical order. -/
def ballTab : Int → String → Option (Unit × BCall ℚ 1 1 Nat → Except Err (Unit × Part ℚ 1 Nat)) :=
  ((cppBcDict (acting (K := ℚ) (g := 1) (τ := Unit) (ρ := Nat) cppSphericalR) [("rmax", 4), ("rmin", 3)] ["e"]).toOption).getD
    (fun _ _ => none)

/-- One electron in every third step. -/
def ballCppSource : Src ℚ SimPart ((Unit × Vec ℚ 1) × Scratch ℚ) where
  name := simSource.name
  species := simSource.species
  interval := simSource.interval
  make := fun count time side => match simSource.make count time side.1 with
    | .error e => .error e
    | .ok (s, xs) => .ok ((s, side.2), xs)

/-- The simulation `ballCfg` with the compiled mover. -/
def ballCppCfg (ss : List (Src ℚ SimPart ((Unit × Vec ℚ 1) × Scratch ℚ))) : Cfg ℚ ℚ SimPart ((Unit × Vec ℚ 1) × Scratch ℚ) (List ℚ) where
  dt := 1 / 2
  move := CppLoop.cppMove (le_refl 1) layoutX (lineCpp ballX 2 (onLine 2 ballPM)) (tableBC ballTab) 4 (1 / 2) (fun _ => -1)
    (fun _ f q => some (fun _ => -(f.getD q.cell.toNat 0)))
  sources := ss
  attrs := ballCfg.attrs
  junk := 0
  partEvery := some 2
  cellEvery := some 3
  fieldEvery := some 1
  quantities := [.count]
  vel := []
  A := ballCfg.A
  SD := ballCfg.SD
  SC := ballCfg.SC
  vol := fun _ => 1
  ncell := 2
  bc := ballCfg.bc
  solve := ballSolve
  factor := none
  fieldOf := ballCfg.fieldOf

def ballCppState : CppLoop.State ℚ ℚ SimPart ((Unit × Vec ℚ 1) × Scratch ℚ) (List ℚ) where
  count := 0
  time := 0
  sps := [⟨"e", CSAP.new 2 (demoPart 0 0 0 false), -1, 1, 1, [0, 0, 0], [0, 0]⟩]
  side := (((), ![0]), fun _ => 99)
  field := []
  solver := ⟨[0, 0, 0], [0, 0, 0], [0, 0, 0]⟩
  file := some ⟨-1, []⟩
  hist := some ⟨2, []⟩
  phiLog := []
  cellLog := []

def ballCppIdeal : Ideal ℚ ℚ SimPart ((Unit × Vec ℚ 1) × Scratch ℚ) :=
  ⟨0, 0, [⟨"e", -1, 1, 1, ⟨[], false⟩⟩], (((), ![0]), fun _ => 99), []⟩

theorem ballCpp_fresh : CppLoop.Fresh 2 (2 + 1) 2 2 ballCppState ballCppIdeal [0, 0, 0] := by
  refine ⟨rfl, rfl, rfl, rfl, rfl, ?_, ?_, ?_, ?_, rfl, rfl⟩
  · have h := CppProgram.start_rel (sl := 2) (by decide) (demoPart 0 0 0 false) [true]
    cases h with
    | cons h _ => exact .cons ⟨rfl, rfl, rfl, rfl, h, rfl, rfl⟩ .nil
  · intro p hp
    simp only [ballCppIdeal, List.mem_singleton] at hp
    rw [hp]
  · exact .inr ⟨-1, rfl, by decide⟩
  · exact .inr rfl

theorem ballCpp_electro (ss : List (Src ℚ SimPart ((Unit × Vec ℚ 1) × Scratch ℚ))) :
    Spec.Electro (ballCppCfg ss) ballX 2 ballFM ballSolver (fun k => k) 2 := by
  obtain ⟨a1, a2, a3, a4, a5, a6, a7⟩ := ball_electro
  exact ⟨a1, a2, a3, a4, a5, a6, a7⟩

/-- The mesh and the table are those of `C121_sphere`. -/
theorem ballCpp_key {ss : List (Src ℚ SimPart ((Unit × Vec ℚ 1) × Scratch ℚ))}
    (hsrc : ∀ s ∈ ss, ∀ count time side side' xs, s.make count time side = .ok (side', xs) → ∀ q ∈ xs,
      Present (le_refl 1) (lineMesh ballX 2 (onLine 2 ballPM)) q) (n : Nat) :
    (∀ {i0 is}, Comp.run (ballCppCfg ss) 2 3 (inLine ballX 2) (some ballInit) [0, 0, 0] n ballCppIdeal = .ok (i0, is) →
      (i0 :: is).IsChain (Comp.FieldStep 1 .spherical ballX 2 .unset 5 (fun _ => true) (fun _ => -1) (ballCppCfg ss) 2) ∧
      ∃ st', CppLoop.run (ballCppCfg ss) (some ballInit) n ballCppState = .ok st' ∧
        CppOutcome Eq (ballCppCfg ss) (fun k => k) 2 2 true [0, 0, 0] ballCppState st' i0 is) ∧
    (ss = [] → ∃ i0 is, Comp.run (ballCppCfg ss) 2 3 (inLine ballX 2) (some ballInit) [0, 0, 0] n ballCppIdeal = .ok (i0, is)) := by
  obtain ⟨gf, gp⟩ := ball_tags
  obtain ⟨fm, pm, hc, -⟩ := C82_radial (K := ℚ) (nr := 2) (by decide) gf.keys gp.keys (fa := 1) (fb := 2) (pa := 3) (pb := 4)
    (by decide) (by decide) (by decide) (by decide) (by decide) (by decide) (by decide) (by decide)
  have hf : ballFM = fm := by unfold ballFM ballMs; rw [hc]; rfl
  have hp : ballPM = pm := by unfold ballPM ballMs; rw [hc]; rfl
  obtain ⟨fm', pm', tab, s, hms, htab, hs, key⟩ := C121_sphere (K := ℚ) (V := ℚ) (ρ := Nat) (τ := Unit) (powLike_nat (K := ℚ) (s := 1) (by decide)) (le_refl 0)
    (by decide : (0 : ℚ) < 2) (by decide : 0 < 2) gf gp (sorted := [("rmax", 4), ("rmin", 3)]) (List.Perm.refl _)
    (fa := 1) (fb := 2) (pa := 3) (pb := 4) (by decide) (by decide) (by decide) (by decide) hc ["e"] one_pos demo_open
  cases hms
  subst hf hp
  have ht : ballTab = tab := by unfold ballTab; rw [htab]; rfl
  subst ht
  rw [create_eq demo_open] at hs
  cases hs
  obtain ⟨k1, k2⟩ := key (cfg := ballCppCfg ss) rfl hsrc (ballCpp_electro ss) (le_refl 2)
    ⟨by simp [ballCppCfg], by simp [ballCppCfg], by simp [ballCppCfg]⟩ (skip := 2) (by decide) n (init := some ballInit) ball_init
    ballCpp_fresh (by simp [ballCppIdeal]) (by simp [ballCppState]) (by simp [ballCppIdeal])
  refine ⟨fun hr => ?_, fun h0 => k2 (by decide) h0 ?_⟩
  · obtain ⟨h1, -, h2⟩ := k1 hr
    exact ⟨h1, h2⟩
  · intro gs hgs
    cases hgs
    refine ⟨by simp [ballInit], ?_⟩
    intro a ha
    simp only [ballInit, List.mem_singleton] at ha
    subst ha
    decide

-- C121 for any number of steps: the program ends normally, and its states are those of the sphere.
example (n : Nat) : ∃ st' i0 is, CppLoop.run (ballCppCfg []) (some ballInit) n ballCppState = .ok st' ∧
    CppOutcome Eq (ballCppCfg []) (fun k => k) 2 2 true [0, 0, 0] ballCppState st' i0 is ∧
    (i0 :: is).IsChain (Comp.FieldStep 1 .spherical ballX 2 .unset 5 (fun _ => true) (fun _ => -1) (ballCppCfg []) 2) := by
  obtain ⟨k1, k2⟩ := ballCpp_key (ss := []) (by simp) n
  obtain ⟨i0, is, hr⟩ := k2 rfl
  obtain ⟨h1, st', h2, h3⟩ := k1 hr
  exact ⟨st', i0, is, h2, h3, h1⟩

/-- Positions and velocities in the states of a compiled simulation on lists. -/
def ballCppView (ss : List (Src ℚ SimPart ((Unit × Vec ℚ 1) × Scratch ℚ))) (n : Nat) : Option (List (List (ℚ × ℚ))) :=
  (Comp.run (ballCppCfg ss) 2 3 (inLine ballX 2) (some ballInit) [0, 0, 0] n ballCppIdeal).toOption.map
    (fun r => (r.1 :: r.2).map (fun i => i.pops.flatMap (fun p => p.st.items.map (fun q => (q.x 0, q.u 0)))))

-- With the source: the same as in `ballView`.
example : ballCppView [ballCppSource] 3 = some [[(1 / 2, -1), (3 / 2, 9), (5 / 4, -1)],
    [(3 / 32, -13 / 16), (363 / 448, -197 / 224)],
    [(767 / 7168, 1439 / 3584), (4129 / 7168, -1679 / 3584)],
    [(71 / 128, 3209 / 3584), (1055 / 1792, 13 / 512), (1 / 4, 1)]] := by decide +kernel

example : ∃ i0 is, Comp.run (ballCppCfg [ballCppSource]) 2 3 (inLine ballX 2) (some ballInit) [0, 0, 0] 3 ballCppIdeal = .ok (i0, is) ∧
    (i0 :: is).IsChain (Comp.FieldStep 1 .spherical ballX 2 .unset 5 (fun _ => true) (fun _ => -1) (ballCppCfg [ballCppSource]) 2) := by
  obtain ⟨k1, -⟩ := ballCpp_key (ss := [ballCppSource]) (by
    intro s hs count time side side' xs e q hq
    simp only [List.mem_singleton] at hs
    subst hs
    simp only [ballCppSource] at e
    split at e
    · cases e
    · rename_i s1 xs1 he
      cases e
      exact ball_sources simSource (by simp [ballCfg, simCfg]) count time side.1 _ _ he q hq) 3
  cases hr : Comp.run (ballCppCfg [ballCppSource]) 2 3 (inLine ballX 2) (some ballInit) [0, 0, 0] 3 ballCppIdeal with
  | error f =>
    have h : (ballCppView [ballCppSource] 3).isSome = true := by decide +kernel
    unfold ballCppView at h
    rw [hr] at h
    cases h
  | ok r =>
    obtain ⟨i0, is⟩ := r
    exact ⟨i0, is, rfl, (k1 hr).1⟩

end Dt
