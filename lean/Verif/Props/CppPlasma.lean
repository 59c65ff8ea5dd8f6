import Verif.Lemmas.CppPlasma

/-!
# A compiled simulation of a plasma on a triangulation (C120)
-/

set_option linter.unusedSectionVars false

namespace Dt
open Spec Poisson Dt.Topology
open TimeLoop (Cfg Src GoodMesh AllOf)
open CppLoop (GoodEvery)
variable {K V : Type} [Field K] [LinearOrder K] [IsStrictOrderedRing K] {g : Nat} {ρ τ : Type}

section
variable {hg : g ≤ 3} {D : DMesh K g} {sh : Shape K g} {N : Nat} {marker pmarker : Int → Int} {eps : K} {lo hi : Int} {v0 vN : K}
  {σ : Type} {cfg : Cfg K V (Part K g ρ) σ (List (Vec K g))} {s : Solver K} {d : Nat → Nat} {C : Nat}

/-- The field of a state whose particles are in simplices: it is the electric field of the particles, and the field
data hold its values. -/
theorem state_field (he : 0 < eps) (hm : Meshed D sh N)
    (hl : ∀ i ≤ N, Linked D (fun i => OnSide D marker lo i ∨ OnSide D marker hi i) i)
    {dd : List (String × Int × Val K)} (h1 : dd.lookup "rmin" = some (lo, .num v0)) (h2 : dd.lookup "rmax" = some (hi, .num vN))
    (hs : createOn eps D sh N marker dd = .ok s) (hP : PlasmaOn cfg D sh N marker s d C)
    {sx : Part K g ρ → DSimplex K} {pops : List (Pop K V (Part K g ρ))}
    (hsx : ∀ pop ∈ pops, ∀ q ∈ pop.st.items, sx q ∈ D.cells ∧ (sx q).index = q.cell ∧ InHull (corner D (sx q)) q.x) :
    ∃ E : DSimplex K → Vec K g,
      IsFieldOf eps D sh.vol marker lo hi v0 vN (pointsIn cfg.A.weight (cfg.factor.getD 1) sx pops) E ∧
      ∀ pop ∈ pops, ∀ q ∈ pop.st.items,
        ((cfg.fieldOf (potential cfg (N + 1) pops))[q.cell.toNat]?).map (fun e => -e) = some (E (sx q)) := by
  have ho := hP.onMeshed
  have hidx : ∀ q, sx q ∈ D.cells → (sx q).index = q.cell → (sx q).index = (cfg.A.cell q : Int) := by
    intro q hq hi
    obtain ⟨k, -, hk, -⟩ := hP.number hq
    rw [hP.cell, ← hi, hk]
    simp
  have hneg : ∀ w : Vec K g, - -w = w := fun w => neg_neg w
  obtain ⟨s', hs', hpot⟩ := C94_potential he hm hl h1 h2
  rw [hs] at hs'
  cases hs'
  have hQ : ((List.range (N + 1)).map (fun k => chargeAt cfg pops k * cfg.factor.getD 1)).length = N + 1 := by simp
  obtain ⟨F, hF, hE⟩ := (hpot _ hQ).2 (potential cfg (N + 1) pops) (by
    unfold potential
    rw [ho.bc]
    exact ho.solve _ ((rhs_length _ _ _).trans hQ))
  refine ⟨fun c => -(F c), ⟨⟨_, hE.sides, fun c hc => by rw [hneg]; exact hE.gradient c hc⟩, ?_⟩, ?_⟩
  · intro v G val hv hG hval
    rw [pairing_neg, hE.gauss v G hv hG]
    congr 1
    have hget : ∀ k ∈ Finset.range (N + 1), ((List.range (N + 1)).map (fun k => chargeAt cfg pops k * cfg.factor.getD 1)).getD k 0 * v k =
        ((chargedParticles cfg pops).map (fun q => q.1 * share (cfg.SD.dofs (cfg.A.cell q.2)) (cfg.SD.basis q.2) k * v k)).sum := by
      intro k hk
      rw [List.getD_eq_getElem?_getD, List.getElem?_map, List.getElem?_range (Finset.mem_range.1 hk)]
      show chargeAt cfg pops k * cfg.factor.getD 1 * v k = _
      rw [charge_particles, ← List.sum_map_mul_right]
    rw [Finset.sum_congr rfl hget, sum_swap]
    have e : pointsIn cfg.A.weight (cfg.factor.getD 1) sx pops =
        (chargedParticles cfg pops).map (fun q => (q.1, q.2.x, sx q.2)) := by
      unfold chargedParticles pointsIn
      simp only [List.map_flatMap, List.map_map]
      rfl
    rw [e, List.map_map]
    congr 1
    refine List.map_congr_left fun q hq => ?_
    have hq' := hq
    unfold chargedParticles at hq'
    obtain ⟨pop, hp, hq'⟩ := List.mem_flatMap.1 hq'
    obtain ⟨q', hq'', rfl⟩ := List.mem_map.1 hq'
    obtain ⟨a1, a2, -⟩ := hsx pop hp q' hq''
    have hy := hval (pop.charge * cfg.A.weight q' * cfg.factor.getD 1, q'.x, sx q') (by
      rw [e]; exact List.mem_map.2 ⟨_, hq, rfl⟩)
    dsimp only [Function.comp_apply] at hy ⊢
    rw [← deposit_value hm ho a1 (hidx q' a1 a2) hy, Finset.mul_sum]
    exact Finset.sum_congr rfl fun k _ => by ring
  · intro pop hp q hq
    obtain ⟨a1, a2, -⟩ := hsx pop hp q hq
    obtain ⟨k, k1, k2, -⟩ := hP.number a1
    have hk : q.cell.toNat = k := by rw [← a2, k2]; simp
    rw [hP.field, hF, hk]
    simp only [List.getElem?_map, k1, Option.map_some]

end

section
variable {hg : g ≤ 3} {D : DMesh K g} {sh : Shape K g} {N : Nat} {marker pmarker : Int → Int} {eps : K} {lo hi : Int} {v0 vN : K}

/-- What the compiled mover does to a particle in its simplex. -/
theorem cpp_particle {M : Mesh K g} {cm : CppMesh K} (hM : M.Conforming) {dom : Vec K g → Bool} (hd : M.Convex dom)
    (ht : cm.Twin M) {L : Layout K g} (hL : L.Right)
    {bc : String → Int → τ → BCall K g g ρ → Except Err (τ × Part K g ρ)} (hb : ∀ sn, PlainBC M (bc sn))
    {maxCross : Nat} {dt : K} {qom : String → K} {φ : Type} {E : String → φ → Part K g ρ → Option (Vec K g)}
    {sn : String} {f : φ} {c : Int} {t : K} {st st' : (τ × Vec K g) × Scratch K} {i o : Int} {ic : Bool}
    {q q' : Part K g ρ} {k : Bool} (hq : Present (le_refl g) M q)
    (e : CppLoop.cppMove (le_refl g) L cm bc maxCross dt qom E sn f c t st i o ic q = .ok (st', q', k)) :
    kin q' = leap dt (qom sn) (E sn f q) (kin q) ∧ k = dom (leap dt (qom sn) (E sn f q) (kin q)).1 ∧
      (k = true → Present (le_refl g) M q') := by
  have hsim := C109_movers ht (le_refl g) hL (bcC := bc) (bcP := bc) (fun _ _ _ _ _ => Iff.rfl) maxCross dt qom E sn f
    c t st st.1 i o ic q rfl
  obtain ⟨st2, e2, -⟩ := hsim.1 _ _ e
  have hkeep := pyMove_keeps (h := le_refl g) (M := M) (bc := bc) (maxCross := maxCross) (dt := dt) (qom := qom) (E := E)
    (sn := sn) (hb sn).keepsCell (Q := fun _ => True) (f := f) (c := c) (t := t) (fun _ _ _ _ _ => trivial)
  have hk := (hkeep st.1 i o ic q hq).1
  unfold pyMove plainAdv at e2
  cases em : moveCharged (le_refl g) M .charged (bc sn) maxCross t dt (qom sn * dt) false (E sn f) st.1 q with
  | error e' => rw [em] at e2; cases e2
  | ok r =>
    obtain ⟨st3, q3, evs⟩ := r
    rw [em] at e2
    simp only [bind, Except.bind, pure, Except.pure, Except.ok.injEq, Prod.mk.injEq] at e2
    obtain ⟨rfl, rfl, rfl⟩ := e2
    obtain ⟨k1, k2⟩ := C75_particle hM hd rfl (hb sn) hq em
    refine ⟨k1, ?_, ?_⟩
    · rw [k2, ← k1]
      simp only [Bool.not_not]
      rfl
    · intro hdel
      refine hk st3 q3 ?_
      unfold pyMove plainAdv
      rw [em]
      simp only [bind, Except.bind, pure, Except.pure, hdel]

/-- **C120.** A plasma on a triangulation of a convex domain, in any dimension, moved by the compiled code: the arrays of
the compiled code are built from the mesh, the solver is made, and from each state of a simulation to the next every
charged particle makes a leapfrog step in the electric field of all particles present, which follows from Gauss's law;
it is lost if this takes it out of the domain; the particles of sources are added; nothing else happens to the
particles.  Species may lose all their particles. -/
theorem C120_plasma (hD : Triangulation hg D) {nVerts : Nat} (hnum : Numbered D nVerts) {dom : Vec K g → Bool}
    (hdom : ConvexDomain hg D dom) (junk : Int)
    (hpm : ∀ c ∈ D.cells, ∀ F ∈ c.facets, (∀ c' ∈ D.cells, F ∈ c'.facets → c'.index = c.index) → pmarker F ≠ 0)
    (he : 0 < eps) (hm : Meshed D sh N) (hl : ∀ i ≤ N, Linked D (fun i => OnSide D marker lo i ∨ OnSide D marker hi i) i)
    {dd : List (String × Int × Val K)}
    (h1 : dd.lookup "rmin" = some (lo, .num v0)) (h2 : dd.lookup "rmax" = some (hi, .num vN)) :
    ∃ M cm s, buildMesh hg D junk pmarker = .ok M ∧ buildCpp D nVerts pmarker = .ok cm ∧ createOn eps D sh N marker dd = .ok s ∧
      ∀ {L : Layout K g}, L.Right →
      ∀ {bc : String → Int → τ → BCall K g g ρ → Except Err (τ × Part K g ρ)}, (∀ sn, PlainBC M (bc sn)) →
      ∀ {maxCross : Nat} {qom : String → K} {cfg : Cfg K V (Part K g ρ) ((τ × Vec K g) × Scratch K) (List (Vec K g))},
        cfg.move = CppLoop.cppMove (le_refl g) L cm bc maxCross cfg.dt qom (fun _ f q => (f[q.cell.toNat]?).map (fun e => -e)) →
        (∀ s ∈ cfg.sources, ∀ count time side side' xs, s.make count time side = .ok (side', xs) → ∀ q ∈ xs, InSimplex D q) →
        ∀ {d : Nat → Nat} {C sl : Nat}, PlasmaOn cfg D sh N marker s d C → 2 ≤ sl → GoodEvery cfg →
        ∀ {skip : Int}, skip ≠ 0 → ∀ (n : Nat) {init : Option (List (String × List (Part K g ρ)))},
        (∀ gs, init = some gs → ∀ a ∈ gs, ∀ q ∈ a.2, InSimplex D q) →
        ∀ {st : CppLoop.State K V (Part K g ρ) ((τ × Vec K g) × Scratch K) (List (Vec K g))}
          {i : Ideal K V (Part K g ρ) ((τ × Vec K g) × Scratch K)} {b : List K},
        CppLoop.Fresh sl (N + 1) C skip st i b → (i.pops.map (·.name)).Nodup → (st.file = none → cfg.partEvery = none) →
        -- the simulation on lists is one of a plasma, and the program does the same
        (∀ {i0 : Ideal K V (Part K g ρ) ((τ × Vec K g) × Scratch K)} {is : List (Ideal K V (Part K g ρ) ((τ × Vec K g) × Scratch K))},
          Comp.run cfg sl (N + 1) (onCells D) init b n i = .ok (i0, is) →
          (i0 :: is).IsChain (Comp.PlasmaStep eps D sh.vol marker lo hi v0 vN dom qom cfg sl) ∧
          (∀ j ∈ i0 :: is, ∀ pop ∈ j.pops, ∀ q ∈ pop.st.items, InSimplex D q) ∧
          ∃ st', CppLoop.run cfg init n st = .ok st' ∧ CppOutcome Eq cfg d C skip init.isSome b st st' i0 is) ∧
        -- without sources it comes to its end, if the limit on crossings is not too small
        (∀ {m : Nat}, AtMost hg D m → m ≤ maxCross → cfg.sources = [] →
          (∀ gs, init = some gs → (gs.map (·.2.length)).sum < 4294967296 ∧ ∀ a ∈ gs, a.1 ∈ i.pops.map (·.name)) →
          ∃ i0 is, Comp.run cfg sl (N + 1) (onCells D) init b n i = .ok (i0, is)) := by
  classical
  obtain ⟨M, cm, e, ecm, ht⟩ := C107_same_mesh hD hnum junk pmarker
  obtain ⟨M', e', -, hM⟩ := C88_conforming hD junk hpm
  rw [e] at e'
  cases e'
  obtain ⟨s, hs, hpot⟩ := C94_potential he hm hl h1 h2
  refine ⟨M, cm, s, e, ecm, hs, ?_⟩
  intro L hL bc hb maxCross qom cfg hmove hsrc d C sl hP h2sl hc skip hskip n init hinit st i b hf hn hnone
  have hd := convex_built hD e hdom
  have hg' := hP.goodMesh hm
  have hpres : ∀ q : Part K g ρ, Present (le_refl g) M q ↔ InSimplex D q := fun q => present_built hD e
  refine ⟨fun {i0 is} hr => ?_, fun {m} hat hmc hns hbig => ?_⟩
  · have key := C109_run h2sl hc hg' hskip n init hf hnone
    rw [hr] at key
    obtain ⟨-, st', e2, ho⟩ := key
    obtain ⟨k1, k2, k3, k4⟩ := CppPlasma.run_filter (P := Present (le_refl g) M) kin
      (fun sn f q => leap cfg.dt (qom sn) ((f[q.cell.toNat]?).map (fun e => -e)) (kin q)) (fun k => dom k.1)
      (fun sn f c t st i o b x st' y k hx ex => by
        rw [hmove] at ex
        exact cpp_particle hM hd ht hL hb hx ex)
      (fun s hs c t sd sd' xs ex q hq => (hpres q).2 (hsrc s hs c t sd sd' xs ex q hq))
      (fun gs hgs a ha q hq => (hpres q).2 (hinit gs hgs a ha q hq)) hf.empty hn hr
    refine ⟨?_, fun j hj pop hp q hq => (hpres q).1 (k1 j hj pop hp q hq), st', e2, ho⟩
    let sx : Part K g ρ → DSimplex K := fun q =>
      if h : ∃ c ∈ D.cells, c.index = q.cell ∧ InHull (corner D c) q.x then h.choose else ⟨0, [], [], fun _ => 0⟩
    have hsx : ∀ j ∈ i0 :: is, ∀ pop ∈ j.pops, ∀ q ∈ pop.st.items,
        sx q ∈ D.cells ∧ (sx q).index = q.cell ∧ InHull (corner D (sx q)) q.x := by
      intro j hj pop hp q hq
      have := ((hpres q).1 (k1 j hj pop hp q hq)).1
      have e : sx q = this.choose := dif_pos this
      rw [e]
      exact this.choose_spec
    have hfield : ∀ j ∈ i0 :: is, ∃ E : DSimplex K → Vec K g,
        IsFieldOf eps D sh.vol marker lo hi v0 vN (pointsIn cfg.A.weight (cfg.factor.getD 1) sx j.pops) E ∧
        ∀ pop ∈ j.pops, ∀ q ∈ pop.st.items, ((cfg.fieldOf j.phi)[q.cell.toNat]?).map (fun e => -e) = some (E (sx q)) := by
      intro j hj
      obtain ⟨E, hE1, hE2⟩ := state_field he hm hl h1 h2 hs hP (hsx j hj)
      refine ⟨E, hE1, ?_⟩
      by_cases hj' : j ∈ (if init.isSome then [i0] else []) ++ is
      · rw [k3 j hj']
        exact hE2
      · rcases List.mem_cons.1 hj with rfl | hj
        · cases hi : init with
          | some gs => exact absurd (by rw [hi]; simp) hj'
          | none =>
            intro pop hp q hq
            rw [k2 hi pop hp] at hq
            cases hq
        · exact absurd (List.mem_append_right _ hj) hj'
    clear k3 hr ho e2
    have key : ∀ Ls : List (Ideal K V (Part K g ρ) ((τ × Vec K g) × Scratch K)), (∀ j ∈ Ls, j ∈ i0 :: is) →
        Ls.IsChain (fun i j => j.count = i.count + 1 ∧ j.time = i.time + cfg.dt ∧
          List.Forall₂ (fun s s' => s'.name = s.name ∧ s'.charge = s.charge ∧ s'.mass = s.mass ∧ s'.index = s.index ∧
            s'.st.items.map kin = (if s.charge = 0 then s.st.items.map kin
              else (s.st.items.map ((fun sn (f : List (Vec K g)) (q : Part K g ρ) =>
                leap cfg.dt (qom sn) ((f[q.cell.toNat]?).map (fun e => -e)) (kin q)) s.name (cfg.fieldOf i.phi))).filter (fun k => dom k.1)) ++
              (Spec.Comp.made cfg sl s.name i).map kin) i.pops j.pops) →
        Ls.IsChain (Comp.PlasmaStep eps D sh.vol marker lo hi v0 vN dom qom cfg sl) := by
      intro Ls
      induction Ls with
      | nil => intro _ _; exact .nil
      | cons a Ls ih =>
        intro hF hLs
        cases Ls with
        | nil => simp
        | cons a2 Ls =>
          rw [List.isChain_cons_cons] at hLs ⊢
          refine ⟨?_, ih (fun j hj => hF j (by simp [hj])) hLs.2⟩
          have ha := hF a (by simp)
          obtain ⟨E, hE1, hE2⟩ := hfield a ha
          obtain ⟨m1, m2, m4⟩ := hLs.1
          refine ⟨m1, m2, sx, fun pop hp q hq => ⟨(hsx a ha pop hp q hq).1, (hsx a ha pop hp q hq).2.2⟩, E, hE1, ?_⟩
          clear hE1
          generalize a.pops = l at m4 hE2
          generalize a2.pops = l' at m4
          induction m4 with
          | nil => exact .nil
          | @cons p p' ps ps' h1 _ ih2 =>
            refine .cons ?_ (ih2 (fun pop hp => hE2 pop (by simp [hp])))
            obtain ⟨e1, e2, e3, e4, e5⟩ := h1
            refine ⟨e1, e2, e3, e4, ?_⟩
            rw [e5]
            congr 2
            congr 1
            refine List.map_congr_left fun q hq => ?_
            dsimp only
            rw [hE2 p (by simp) q hq]
    exact key _ (fun j hj => hj) k4
  · obtain ⟨st', i0, is, -, hr, -⟩ := C109_ends_normally h2sl hc hg' hskip n (P := Present (le_refl g) M) (onMesh := onCells D)
      (fun q hq => by
        obtain ⟨⟨c, hc, hi, -⟩, -⟩ := (hpres q).1 hq
        exact List.any_eq_true.2 ⟨c, hc, by simpa using hi⟩) hns
      (fun sn _ f c t st i o ic q hq => by
        obtain ⟨⟨st2, q', evs⟩, hr⟩ := (never_too_many hD e hM hat hmc (v := .charged) rfl (hb sn).good (hb sn).absorbs t cfg.dt
          (qom sn * cfg.dt) false ((fun f (q : Part K g ρ) => (f[q.cell.toNat]?).map (fun e => -e)) f) st.1 hq.1).1
        have hp : pyMove (le_refl g) M bc maxCross cfg.dt qom (fun _ f q => (f[q.cell.toNat]?).map (fun e => -e)) sn f c t st.1 i o ic q =
            .ok (st2, q', !q'.del) := by
          unfold pyMove plainAdv
          rw [hr]
          rfl
        have hsim := C109_movers ht (le_refl g) hL (bcC := bc) (bcP := bc) (fun _ _ _ _ _ => Iff.rfl) maxCross cfg.dt qom
          (fun _ f q => (f[q.cell.toNat]?).map (fun e => -e)) sn f c t st st.1 i o ic q rfl
        obtain ⟨st1, e1, -⟩ := hsim.2 _ _ hp
        rw [hmove]
        exact ⟨st1, q', _, e1, fun hk => (cpp_particle hM hd ht hL hb hq e1).2.2 hk⟩) hf hnone
      (fun gs hgs => ⟨(hbig gs hgs).1, fun a ha => ⟨(hbig gs hgs).2 a ha, fun q hq => (hpres q).2 (hinit gs hgs a ha q hq)⟩⟩)
    exact ⟨i0, is, hr⟩

end

/-! ### The two triangles -/

/-- The mesh arrays of the two triangles. -/
def kiteCpp : CppMesh ℚ :=
  ((buildCpp (kite false) 4 (fun F => if F = 1 then 0 else 1)).toOption).getD ⟨[], fun _ => none, fun _ => 0⟩

/-- The simulation `kiteCfg` with the compiled mover. -/
def kiteCppCfg : Cfg ℚ ℚ KitePart ((Unit × Vec ℚ 2) × Scratch ℚ) (List (Vec ℚ 2)) where
  dt := 1 / 2
  move := CppLoop.cppMove (le_refl 2) layoutXY kiteCpp (fun _ => kiteSink) 10 (1 / 2) (fun _ => -1)
    (fun _ f q => (f[q.cell.toNat]?).map (fun e => -e))
  sources := []
  attrs := kiteCfg.attrs
  junk := 0
  partEvery := some 2
  cellEvery := some 3
  fieldEvery := some 1
  quantities := [.count]
  vel := []
  A := kiteCfg.A
  SD := kiteCfg.SD
  SC := kiteCfg.SC
  vol := fun _ => 1
  ncell := 2
  bc := kiteCfg.bc
  solve := kiteSolve
  factor := none
  fieldOf := kiteCfg.fieldOf

def kiteCppState : CppLoop.State ℚ ℚ KitePart ((Unit × Vec ℚ 2) × Scratch ℚ) (List (Vec ℚ 2)) where
  count := 0
  time := 0
  sps := [⟨"e", CSAP.new 2 (kitePart 0 0 0 0 0), -1, 1, 1, [0, 0, 0, 0], [0, 0]⟩]
  side := (((), ![0, 0]), fun _ => 99)
  field := []
  solver := ⟨[0, 0, 0, 0], [0, 0, 0, 0], [0, 0, 0, 0]⟩
  file := some ⟨-1, []⟩
  hist := some ⟨2, []⟩
  phiLog := []
  cellLog := []

def kiteCppIdeal : Ideal ℚ ℚ KitePart ((Unit × Vec ℚ 2) × Scratch ℚ) :=
  ⟨0, 0, [⟨"e", -1, 1, 1, ⟨[], false⟩⟩], (((), ![0, 0]), fun _ => 99), []⟩

theorem kiteCpp_fresh : CppLoop.Fresh 2 (3 + 1) 2 2 kiteCppState kiteCppIdeal [0, 0, 0, 0] := by
  refine ⟨rfl, rfl, rfl, rfl, rfl, ?_, ?_, ?_, ?_, rfl, rfl⟩
  · have h := CppProgram.start_rel (sl := 2) (by decide) (kitePart 0 0 0 0 0) [true]
    cases h with
    | cons h _ => exact .cons ⟨rfl, rfl, rfl, rfl, h, rfl, rfl⟩ .nil
  · intro p hp
    simp only [kiteCppIdeal, List.mem_singleton] at hp
    rw [hp]
  · exact .inr ⟨-1, rfl, by decide⟩
  · exact .inr rfl

theorem kiteInit_in : ∀ gs, some kiteInit = some gs → ∀ a ∈ gs, ∀ q ∈ a.2, InSimplex (kite false) q := by
  intro gs hgs a ha q hq
  cases hgs
  simp only [kiteInit, List.mem_singleton] at ha
  subst ha
  have hull : ∀ (c : DSimplex ℚ) (x : Vec ℚ 2) (w : Fin 3 → ℚ), (∀ i, 0 ≤ w i) ∧ ∑ i, w i = 1 ∧
      (∀ e, x e = ∑ i, w i * corner (kite false) c i e) → InHull (corner (kite false) c) x := fun c x w h => ⟨w, h⟩
  simp only [List.mem_cons, List.not_mem_nil, or_false] at hq
  rcases hq with rfl | rfl | rfl
  · exact ⟨⟨(kiteCells false)[1], by simp [kite], rfl, hull _ _ ![1 / 4, 1 / 4, 1 / 2] (by decide +kernel)⟩, rfl⟩
  · exact ⟨⟨(kiteCells false)[1], by simp [kite], rfl, hull _ _ ![1 / 8, 1 / 8, 3 / 4] (by decide +kernel)⟩, rfl⟩
  · exact ⟨⟨(kiteCells false)[0], by simp [kite], rfl, hull _ _ ![1 / 4, 1 / 2, 1 / 4] (by decide +kernel)⟩, rfl⟩

-- C120 for any number of steps: the compiled program ends normally and its states are those of a plasma.
example (n : Nat) : ∃ st' i0 is, CppLoop.run kiteCppCfg (some kiteInit) n kiteCppState = .ok st' ∧
    CppOutcome Eq kiteCppCfg (fun k => k) 2 2 true [0, 0, 0, 0] kiteCppState st' i0 is ∧
    (i0 :: is).IsChain (Comp.PlasmaStep 1 (kite false) (kiteShape false).vol kiteMarks 1 2 0 1 kiteDom (fun _ => -1) kiteCppCfg 2) := by
  obtain ⟨M, cm, s, e, ecm, hs, key⟩ := C120_plasma (τ := Unit) (V := ℚ) (ρ := Nat) (eps := (1 : ℚ)) kite_triangulation kite_numbered
    kite_convex 0 (pmarker := fun F => if F = 1 then 0 else 1) (by decide) one_pos (kite_meshed false) (kite_linked false)
    (dd := kiteBCs) rfl rfl
  have hcm : kiteCpp = cm := by unfold kiteCpp; rw [ecm]; rfl
  have hs' : s = kiteSolver := by
    have : createOn 1 (kite false) (kiteShape false) 3 kiteMarks kiteBCs = .ok kiteSolver := rfl
    rw [hs] at this
    cases this
    rfl
  subst hs'
  have hpl : PlasmaOn kiteCppCfg (kite false) (kiteShape false) 3 kiteMarks kiteSolver (fun k => k) 2 := by
    obtain ⟨a1, a2, a3, a4, a5, a6, a7, a8⟩ := kite_plasma
    exact ⟨a1, a2, a3, a4, a5, a6, a7, a8⟩
  obtain ⟨k1, k2⟩ := key (L := layoutXY) C66_layouts.2.1 (bc := fun _ => kiteSink) (fun _ => kite_sink M (kite_interior e)) (maxCross := 10)
    (qom := fun _ => -1) (cfg := kiteCppCfg) (by rw [← hcm]; rfl) (by simp [kiteCppCfg]) hpl (le_refl 2)
    ⟨by simp [kiteCppCfg], by simp [kiteCppCfg], by simp [kiteCppCfg]⟩ (skip := 2) (by decide) n (init := some kiteInit) kiteInit_in
    kiteCpp_fresh (by simp [kiteCppIdeal]) (by simp [kiteCppState])
  obtain ⟨i0, is, hr⟩ := k2 (m := 2) (C102_plane kite_triangulation) (by decide) rfl (by
    intro gs hgs
    cases hgs
    refine ⟨by simp [kiteInit], ?_⟩
    intro a ha
    simp only [kiteInit, List.mem_singleton] at ha
    subst ha
    decide)
  obtain ⟨h1, -, st', h2, h3⟩ := k1 hr
  exact ⟨st', i0, is, h2, h3, h1⟩

/-- The positions in the states of a compiled simulation on lists. -/
def kiteCppView (n : Nat) : Option (List (List (ℚ × ℚ × Int))) :=
  (Comp.run kiteCppCfg 2 4 onKite (some kiteInit) [0, 0, 0, 0] n kiteCppIdeal).toOption.map
    (fun r => (r.1 :: r.2).map (fun i => i.pops.flatMap (fun p => p.st.items.map (fun q => (q.x 0, q.x 1, q.cell)))))

-- The same as in `kiteView`.
example : kiteCppView 2 = some [[(1, -1 / 2, 1), (1, -3 / 4, 1), (1, 1 / 2, 0)], [(7 / 8, 5 / 64, 0), (7 / 8, 1 / 8, 0)],
    [(5 / 8, -1 / 8, 1)]] := by decide +kernel

end Dt
