import Verif.Spec.Plasma
import Verif.Props.ElementsLoop
import Verif.Props.Leapfrog
import Verif.Props.MeshBuild

/-!
# Particles in their own field on any triangulation of a convex domain (C97)
-/

set_option linter.unusedSectionVars false

namespace Dt
open Spec Poisson Dt.Topology TimeLoop
variable {K V τ ρ : Type} [Field K] [LinearOrder K] [IsStrictOrderedRing K] {g : Nat}

section
variable {eps : K} {D : DMesh K g} {vol : DSimplex K → K} {marker : Int → Int} {lo hi : Int} {v0 vN : K}

theorem valueAt_of_hull {c : DSimplex K} {x : Vec K g} (h : InHull (corner D c) x) (v : Nat → K) : ∃ y, ValueAt D c v x y := by
  obtain ⟨w, -, h1, h2⟩ := h
  exact ⟨_, w, h1, h2, rfl⟩

theorem sum_zero {β : Type} {l : List β} {f : β → K} (h : ∀ b ∈ l, 0 ≤ f b) (hs : (l.map f).sum = 0) : ∀ b ∈ l, f b = 0 := by
  induction l with
  | nil => simp
  | cons a l ih =>
    rw [List.map_cons, List.sum_cons] at hs
    have h1 := h a (by simp)
    have h2 : 0 ≤ (l.map f).sum := List.sum_nonneg (by
      intro y hy
      obtain ⟨b, hb, rfl⟩ := List.mem_map.1 hy
      exact h b (by simp [hb]))
    intro b hb
    rcases List.mem_cons.1 hb with rfl | hb
    · linarith
    · exact ih (fun b hb => h b (by simp [hb])) (by linarith) b hb

theorem pairing_neg (F G : DSimplex K → Vec K g) :
    pairing eps D vol (fun c => -(F c)) G = -pairing eps D vol F G := by
  unfold pairing
  generalize D.cells = l
  induction l with
  | nil => simp
  | cons c l ih =>
    simp only [List.map_cons, List.sum_cons]
    rw [ih]
    have : dot (-(F c)) (G c) = -dot (F c) (G c) := by simp [dot]
    rw [this]
    ring

/-- C97.  There is only one such field. -/
theorem C97_field_unique (he : 0 < eps) (hv : ∀ c ∈ D.cells, 0 < vol c) {charges : List (K × Vec K g × DSimplex K)}
    (hin : ∀ q ∈ charges, InHull (corner D q.2.2) q.2.1) {E E' : DSimplex K → Vec K g}
    (h : IsFieldOf eps D vol marker lo hi v0 vN charges E) (h' : IsFieldOf eps D vol marker lo hi v0 vN charges E') :
    ∀ c ∈ D.cells, E c = E' c := by
  classical
  obtain ⟨⟨phi, hs, hg⟩, hG⟩ := h
  obtain ⟨⟨phi', hs', hg'⟩, hG'⟩ := h'
  have hvan : Vanishes D marker lo hi (fun i => phi' i - phi i) := by
    intro i hi'
    show phi' i - phi i = 0
    by_cases h2 : OnSide D marker hi i
    · rw [hs.high i h2, hs'.high i h2, sub_self]
    · have h1 := hi'.resolve_right h2
      rw [hs.low i h1 h2, hs'.low i h1 h2, sub_self]
  have hgr : ∀ c ∈ D.cells, IsGrad D c (fun i => phi' i - phi i) (E c - E' c) := by
    intro c hc j
    have a := hg c hc j
    have b := hg' c hc j
    have e : dot (E c - E' c) (corner D c j - corner D c 0) =
        dot (-(E' c)) (corner D c j - corner D c 0) - dot (-(E c)) (corner D c j - corner D c 0) := by
      simp only [dot, Pi.sub_apply, Pi.neg_apply]
      rw [← Finset.sum_sub_distrib]
      exact Finset.sum_congr rfl fun i _ => by ring
    rw [e, a, b]
    ring
  let val : Vec K g × DSimplex K → K := fun q =>
    if h : ∃ y, ValueAt D q.2 (fun i => phi' i - phi i) q.1 y then h.choose else 0
  have hval : ∀ q ∈ charges, ValueAt D q.2.2 (fun i => phi' i - phi i) q.2.1 (val q.2) := by
    intro q hq
    have := valueAt_of_hull (hin q hq) (fun i => phi' i - phi i)
    show ValueAt D q.2.2 _ q.2.1 (dite _ _ _)
    rw [dif_pos this]
    exact this.choose_spec
  have e1 := hG _ (fun c => E c - E' c) val hvan hgr hval
  have e2 := hG' _ (fun c => E c - E' c) val hvan hgr hval
  have e3 : (D.cells.map (fun c => eps * dot (E c - E' c) (E c - E' c) * vol c)).sum = 0 := by
    have : (D.cells.map (fun c => eps * dot (E c - E' c) (E c - E' c) * vol c)).sum =
        pairing eps D vol E (fun c => E c - E' c) - pairing eps D vol E' (fun c => E c - E' c) := by
      unfold pairing
      generalize D.cells = l
      induction l with
      | nil => simp
      | cons c l ih =>
        simp only [List.map_cons, List.sum_cons]
        rw [ih]
        have : dot (E c - E' c) (E c - E' c) = dot (E c) (E c - E' c) - dot (E' c) (E c - E' c) := by
          simp only [dot, Pi.sub_apply]
          rw [← Finset.sum_sub_distrib]
          exact Finset.sum_congr rfl fun i _ => by ring
        rw [this]
        ring
    rw [this, e1, e2, sub_self]
  have hnn : ∀ w : Vec K g, 0 ≤ dot w w := fun w => Finset.sum_nonneg fun i _ => mul_self_nonneg _
  intro c hc
  have := sum_zero (fun c hc => mul_nonneg (mul_nonneg he.le (hnn _)) (hv c hc).le) e3 c hc
  have h0 : dot (E c - E' c) (E c - E' c) = 0 := by
    rcases mul_eq_zero.1 this with h | h
    · exact (mul_eq_zero.1 h).resolve_left he.ne'
    · exact absurd h (hv c hc).ne'
  funext i
  have hi0 := (Finset.sum_eq_zero_iff_of_nonneg (fun i _ => mul_self_nonneg _)).1 h0 i (Finset.mem_univ i)
  have := mul_self_eq_zero.1 hi0
  rw [Pi.sub_apply] at this
  linarith

end

/-- The cell index of a particle is the number of a simplex. -/
def onCells (D : DMesh K g) (q : Part K g ρ) : Bool := D.cells.any (fun c => decide (c.index = q.cell))

/-- A simulation in which the charge of the particles is the source of the Poisson solver `s` on the triangulation.
Simplices are numbered in their order, as Dolfin does. -/
structure Spec.PlasmaOn {σ : Type} (cfg : Cfg K V (Part K g ρ) σ (List (Vec K g))) (D : DMesh K g) (sh : Shape K g) (N : Nat)
    (marker : Int → Int) (s : Solver K) (d : Nat → Nat) (C : Nat) : Prop where
  space : cfg.SD = meshSpace D sh cfg.A.cell (fun q => q.x)
  bc : cfg.bc = applyVecOn (touches D marker) s.bcs
  solve : ∀ b : List K, b.length = N + 1 → Solves N s.A b (cfg.solve b)
  field : cfg.fieldOf = negEOn D sh
  numbered : ∀ (k : Nat) (c : DSimplex K), D.cells[k]? = some c → c.index = k
  cell : ∀ q, cfg.A.cell q = q.cell.toNat
  ncell : cfg.ncell = D.cells.length
  cells : CellField cfg.SC d cfg.ncell C

section
variable {σ : Type} {cfg : Cfg K V (Part K g ρ) σ (List (Vec K g))} {D : DMesh K g} {sh : Shape K g} {N : Nat}
  {marker : Int → Int} {s : Solver K} {d : Nat → Nat} {C : Nat}

theorem Spec.PlasmaOn.number (h : PlasmaOn cfg D sh N marker s d C) {c : DSimplex K} (hc : c ∈ D.cells) :
    ∃ k : Nat, D.cells[k]? = some c ∧ c.index = (k : Int) ∧ k < D.cells.length := by
  obtain ⟨k, hk⟩ := List.mem_iff_getElem?.1 hc
  exact ⟨k, hk, h.numbered k c hk, (List.getElem?_eq_some_iff.1 hk).1⟩

theorem Spec.PlasmaOn.onMeshed (h : PlasmaOn cfg D sh N marker s d C) :
    OnMeshed cfg D sh N marker s (fun q => q.x) id (onCells D) := by
  refine ⟨h.space, h.bc, h.solve, h.field, ?_, fun q hq => ?_⟩
  · rw [List.nodup_iff_injective_get]
    intro i j hij
    have hi := h.numbered i.1 _ (List.getElem?_eq_getElem (by simpa using i.2))
    have hj := h.numbered j.1 _ (List.getElem?_eq_getElem (by simpa using j.2))
    simp only [List.get_eq_getElem, List.getElem_map] at hij
    rw [hi, hj] at hij
    exact Fin.ext (by exact_mod_cast hij)
  · obtain ⟨c, hc, hi⟩ := List.any_eq_true.1 hq
    simp only [decide_eq_true_eq] at hi
    obtain ⟨k, -, hk, -⟩ := h.number hc
    refine ⟨c, hc, ?_⟩
    rw [h.cell, ← hi, hk]
    simp

theorem Spec.PlasmaOn.goodMesh (h : PlasmaOn cfg D sh N marker s d C) (hm : Meshed D sh N) :
    GoodMesh cfg (onCells D) d (N + 1) C := by
  have key : ∀ q, onCells D q = true → ∃ c ∈ D.cells, c.index = (cfg.A.cell q : Int) := h.onMeshed.cell
  refine ⟨fun q hq => ?_, fun q hq => ?_, h.cells⟩
  · obtain ⟨c, hc, hi⟩ := key q hq
    have hf := find_cell h.onMeshed hc hi
    have hd : cfg.SD.dofs (cfg.A.cell q) = c.verts := by
      rw [h.space]; simp only [meshSpace, hf, Option.map_some, Option.getD_some]
    have hb : (cfg.SD.basis q).length = g + 1 := by
      rw [h.space]; simp only [meshSpace, hf, Option.map_some, Option.getD_some, List.length_map, List.length_range]
    refine ⟨?_, ?_, ?_⟩
    · rw [hd]; intro i hi'; have := hm.range c hc i hi'; omega
    · rw [hd, List.nodup_iff_injective_get]
      have hl := hm.corners c hc
      intro i j hij
      by_contra hne
      let a : Fin (g + 1) := ⟨i.1, by have := i.2; omega⟩
      let b : Fin (g + 1) := ⟨j.1, by have := j.2; omega⟩
      have hab : a ≠ b := fun h => hne (Fin.ext (by simpa [a, b] using congrArg Fin.val h))
      have hco : corner D c a = corner D c b := by
        simp only [List.get_eq_getElem] at hij
        simp only [corner, a, b, List.getElem?_eq_getElem i.2, List.getElem?_eq_getElem j.2, hij]
      have h1 := hm.basis c hc a a
      have h2 := hm.basis c hc a b
      rw [hco] at h1
      rw [h1] at h2
      simp only [if_true, if_neg hab] at h2
      have : (1 : K) = 0 := by linear_combination h2
      exact one_ne_zero this
    · rw [hd, hb, hm.corners c hc]
  · obtain ⟨c, hc, hi⟩ := key q hq
    obtain ⟨k, -, hk, hlt⟩ := h.number hc
    rw [h.ncell]
    omega

end

section
variable {hg : g ≤ 3} {D : DMesh K g} {pmarker : Int → Int} {M : Mesh K g}

theorem convex_built (hD : Triangulation hg D) {junk : Int} (e : buildMesh hg D junk pmarker = .ok M) {dom : Vec K g → Bool}
    (hdom : ConvexDomain hg D dom) : M.Convex dom := by
  obtain ⟨M', e', -, hinv, -⟩ := build_ok hD.manifold junk pmarker
  rw [e] at e'
  cases e'
  constructor
  · intro ci C q hC hq
    obtain ⟨c, hc, -, row, hrow, rfl⟩ := hinv ci C hC
    exact hdom.cells c hc q ((made_has hD hc hrow.length_eq.symm q).1 hq)
  · intro ci C k hC hn q hq
    obtain ⟨c, hc, hi, row, hrow, rfl⟩ := hinv ci C hC
    simp only [made] at hn
    intro n v j h1 h2 h3
    obtain ⟨hk, rfl⟩ := normal_get h1
    obtain ⟨hj, rfl⟩ := corner_get hD hc h2
    have hlen := hrow.length_eq
    have hkl : k < row.length := (List.getElem?_eq_some_iff.1 hn).1
    have hF : c.facets[k]? = some c.facets[k] := List.getElem?_eq_getElem (by omega)
    refine hdom.behind c hc k _ hF ?_ ⟨j, hj⟩ h3 q hq
    have hnb : IsNeighbor D.topo ci c.facets[k] (-1) := by
      have := hrow.get (i := k) (by omega) hkl
      have e2 : row[k] = -1 := (List.getElem?_eq_some_iff.1 hn).2
      simp only [List.get_eq_getElem] at this
      rw [e2] at this
      exact this
    intro c' hc' hF'
    rw [hi]
    rcases hnb with ⟨-, h⟩ | ⟨-, fs, hfs, -⟩
    · exact h _ ⟨_, List.mem_map.2 ⟨c', hc', rfl⟩, hF'⟩
    · have := hD.manifold.nonneg _ hfs
      simp at this

theorem present_built (hD : Triangulation hg D) {junk : Int} (e : buildMesh hg D junk pmarker = .ok M) {q : Part K g ρ} :
    Present (le_refl g) M q ↔ (∃ c ∈ D.cells, c.index = q.cell ∧ InHull (corner D c) q.x) ∧ q.del = false := by
  obtain ⟨M', e', -, hin, -⟩ := C88_points hD junk pmarker
  rw [e] at e'
  cases e'
  unfold Present InItsCell
  rw [hin]
  rfl

end

section
variable {hg : g ≤ 3} {D : DMesh K g} {sh : Shape K g} {N : Nat} {marker pmarker : Int → Int} {eps : K} {lo hi : Int} {v0 vN : K}

/-- A particle in the simplex that has the number of its record. -/
def Spec.InSimplex (D : DMesh K g) (q : Part K g ρ) : Prop :=
  (∃ c ∈ D.cells, c.index = q.cell ∧ InHull (corner D c) q.x) ∧ q.del = false

/-- C97.  A plasma on a triangulation of a convex domain, in any dimension: facets that belong to one simplex are
marked and particles are absorbed there, the potential is given at two sides, every vertex is connected with these.
The mesh is built, the solver is made, and from each state of a simulation to the next every charged particle makes
a leapfrog step in the electric field of all particles present, which follows from Gauss's law; it is lost if this
takes it out of the domain; the particles of sources are added; nothing else happens to the particles. -/
theorem C97_plasma (hD : Triangulation hg D) {dom : Vec K g → Bool} (hdom : ConvexDomain hg D dom) (junk : Int)
    (hpm : ∀ c ∈ D.cells, ∀ F ∈ c.facets, (∀ c' ∈ D.cells, F ∈ c'.facets → c'.index = c.index) → pmarker F ≠ 0)
    (he : 0 < eps) (hm : Meshed D sh N) (hl : ∀ i ≤ N, Linked D (fun i => OnSide D marker lo i ∨ OnSide D marker hi i) i)
    {dd : List (String × Int × Val K)}
    (h1 : dd.lookup "rmin" = some (lo, .num v0)) (h2 : dd.lookup "rmax" = some (hi, .num vN)) :
    ∃ M s, buildMesh hg D junk pmarker = .ok M ∧ createOn eps D sh N marker dd = .ok s ∧
      ∀ {bc : String → Int → τ → BCall K g g ρ → Except Err (τ × Part K g ρ)}, (∀ sn, PlainBC M (bc sn)) →
      ∀ {maxCross : Nat} {qom : String → K} {cfg : Cfg K V (Part K g ρ) (τ × Vec K g) (List (Vec K g))},
        cfg.move = pyMove (le_refl g) M bc maxCross cfg.dt qom (fun _ f q => (f[q.cell.toNat]?).map (fun e => -e)) →
        (∀ s ∈ cfg.sources, ∀ count time side side' xs, s.make count time side = .ok (side', xs) → ∀ q ∈ xs, InSimplex D q) →
        ∀ {d : Nat → Nat} {C sl : Nat}, PlasmaOn cfg D sh N marker s d C → GoodCfg cfg →
        ∀ {z : Species.HRow K} (n : Nat) {init : Option (List (String × List (Part K g ρ)))},
        (∀ gs, init = some gs → ∀ a ∈ gs, ∀ q ∈ a.2, InSimplex D q) →
        ∀ {st : State K V (Part K g ρ) (τ × Vec K g) (List (Vec K g))} {i : Ideal K V (Part K g ρ) (τ × Vec K g)} {b : List K},
        Fresh sl (N + 1) C n z st i b → (i.pops.map (·.name)).Nodup → (st.writer = none → cfg.partEvery = none) →
        ∀ {i0 : Ideal K V (Part K g ρ) (τ × Vec K g)} {is : List (Ideal K V (Part K g ρ) (τ × Vec K g))},
          Ideal.run cfg sl (N + 1) (onCells D) init b n i = .ok (i0, is) →
          (i0 :: is).IsChain (PlasmaStep eps D sh.vol marker lo hi v0 vN dom qom cfg sl) ∧
          ∃ st', run cfg init n st = .ok st' ∧ Outcome cfg d C init.isSome b st st' i0 is := by
  classical
  obtain ⟨M, e, -, hM⟩ := C88_conforming hD junk hpm
  obtain ⟨s, hs, hpot⟩ := C94_potential he hm hl h1 h2
  refine ⟨M, s, e, hs, ?_⟩
  intro bc hb maxCross qom cfg hmove hsrc d C sl hP hc z n init hinit st i b hf hn hnone i0 is hr
  have hsrc' : SourcesPresent (le_refl g) M cfg.sources := fun s hs c t sd sd' xs ex q hq =>
    (present_built hD e).2 (hsrc s hs c t sd sd' xs ex q hq)
  have hinit' : InitPresent (le_refl g) M init := fun gs hgs a ha q hq => (present_built hD e).2 (hinit gs hgs a ha q hq)
  have hg' := hP.goodMesh hm
  have hall := (C73_in_its_cell hmove (fun sn => (hb sn).keepsCell) hsrc' hc hg' n hinit' hf hnone hr).1
  obtain ⟨hch, st', e2, ho⟩ := C75_run hM (convex_built hD e hdom) hb hmove hsrc' hc hg' n hinit' hf hn hnone hr
  obtain ⟨st2, -, -, hE⟩ := C96_gauss hc hg' n init hf hnone he hm hl h1 h2 hs hP.onMeshed hr
  refine ⟨?_, st', e2, ho⟩
  -- the simplex of a particle
  have hsx : ∀ j ∈ i0 :: is, ∀ pop ∈ j.pops, ∀ q ∈ pop.st.items, ∃ c ∈ D.cells, c.index = q.cell ∧ InHull (corner D c) q.x :=
    fun j hj pop hp q hq => ((present_built hD e).1 (hall j hj pop hp q hq)).1
  let sx : Part K g ρ → DSimplex K := fun q =>
    if h : ∃ c ∈ D.cells, c.index = q.cell ∧ InHull (corner D c) q.x then h.choose else ⟨0, [], [], fun _ => 0⟩
  have hsx' : ∀ j ∈ i0 :: is, ∀ pop ∈ j.pops, ∀ q ∈ pop.st.items,
      sx q ∈ D.cells ∧ (sx q).index = q.cell ∧ InHull (corner D (sx q)) q.x := by
    intro j hj pop hp q hq
    have := hsx j hj pop hp q hq
    have e : sx q = this.choose := dif_pos this
    rw [e]
    exact this.choose_spec
  have hidx : ∀ q, sx q ∈ D.cells → (sx q).index = q.cell → (sx q).index = (cfg.A.cell q : Int) := by
    intro q hq hi
    obtain ⟨k, -, hk, -⟩ := hP.number hq
    rw [hP.cell, ← hi, hk]
    simp
  have hneg : ∀ w : Vec K g, - -w = w := fun w => neg_neg w
  -- a field for each state
  have hfield : ∀ j ∈ i0 :: is, ∃ E : DSimplex K → Vec K g,
      IsFieldOf eps D sh.vol marker lo hi v0 vN (pointsIn cfg.A.weight (cfg.factor.getD 1) sx j.pops) E ∧
      ∀ pop ∈ j.pops, ∀ q ∈ pop.st.items, ((cfg.fieldOf j.phi)[q.cell.toNat]?).map (fun e => -e) = some (E (sx q)) := by
    have one : ∀ j ∈ (if init.isSome then [i0] else []) ++ is, j ∈ i0 :: is → ∃ E : DSimplex K → Vec K g,
        IsFieldOf eps D sh.vol marker lo hi v0 vN (pointsIn cfg.A.weight (cfg.factor.getD 1) sx j.pops) E ∧
        ∀ pop ∈ j.pops, ∀ q ∈ pop.st.items, ((cfg.fieldOf j.phi)[q.cell.toNat]?).map (fun e => -e) = some (E (sx q)) := by
      intro j hj hj'
      obtain ⟨F, f1, f2, f3, f4⟩ := hE j hj
      refine ⟨fun c => -(F c), ⟨⟨_, f2, fun c hc => by rw [hneg]; exact f3 c hc⟩, ?_⟩, ?_⟩
      · intro v G val hv hG hval
        have := f4 v G (fun q => val (q.x, sx q)) hv hG (by
          intro q hq
          unfold chargedParticles at hq
          obtain ⟨pop, hp, hq⟩ := List.mem_flatMap.1 hq
          obtain ⟨q', hq', rfl⟩ := List.mem_map.1 hq
          obtain ⟨a1, a2, -⟩ := hsx' j hj' pop hp q' hq'
          refine ⟨sx q', a1, hidx q' a1 a2, hval (pop.charge * cfg.A.weight q' * cfg.factor.getD 1, q'.x, sx q') ?_⟩
          unfold pointsIn
          exact List.mem_flatMap.2 ⟨pop, hp, List.mem_map.2 ⟨q', hq', rfl⟩⟩)
        rw [pairing_neg, this]
        congr 2
        unfold chargedParticles pointsIn
        simp only [List.map_flatMap, List.map_map]
        rfl
      · intro pop hp q hq
        obtain ⟨a1, a2, -⟩ := hsx' j hj' pop hp q hq
        obtain ⟨k, k1, k2, -⟩ := hP.number a1
        have hk : q.cell.toNat = k := by rw [← a2, k2]; simp
        rw [f1, hk]
        simp only [id, List.getElem?_map, k1, Option.map_some]
    intro j hj
    rcases List.mem_cons.1 hj with rfl | hj
    · cases hi : init with
      | some gs => exact one _ (by rw [hi]; simp) (by simp)
      | none =>
        have hem : ∀ pop ∈ j.pops, pop.st.items = [] := by
          subst hi
          unfold Ideal.run Ideal.start at hr
          simp only at hr
          split at hr
          · cases hr
          · cases hr
            intro pop hp
            rw [hf.empty pop hp]
        have hcs : pointsIn cfg.A.weight (cfg.factor.getD 1) sx j.pops = [] := by
          unfold pointsIn
          rw [List.flatMap_eq_nil_iff]
          intro pop hp
          rw [hem pop hp]
          rfl
        obtain ⟨⟨U, hU, -⟩, h3⟩ := hpot (List.replicate (N + 1) 0) (by simp)
        obtain ⟨F, -, hF⟩ := h3 U hU
        refine ⟨fun c => -(F c), ⟨⟨_, hF.sides, fun c hc => by rw [hneg]; exact hF.gradient c hc⟩, ?_⟩, ?_⟩
        · intro v G val hv hG hval
          rw [pairing_neg, hF.gauss v G hv hG, hcs]
          simp only [List.map_nil, List.sum_nil, neg_inj]
          refine Finset.sum_eq_zero fun k _ => ?_
          rw [List.getD_eq_getElem?_getD, List.getElem?_replicate]
          split <;> simp
        · intro pop hp q hq
          rw [hem pop hp] at hq
          cases hq
    · exact one j (by simp [hj]) (by simp [hj])
  clear hE hsx hall e2 ho hr
  have key : ∀ Ls : List (Ideal K V (Part K g ρ) (τ × Vec K g)), (∀ j ∈ Ls, j ∈ i0 :: is) →
      Ls.IsChain (LeapStep (le_refl g) dom qom (fun _ f q => (f[q.cell.toNat]?).map (fun e => -e)) cfg sl (N + 1)) →
      Ls.IsChain (PlasmaStep eps D sh.vol marker lo hi v0 vN dom qom cfg sl) := by
    intro Ls
    induction Ls with
    | nil => intro _ _; exact .nil
    | cons a Ls ih =>
      intro hF hL
      cases Ls with
      | nil => simp
      | cons a2 Ls =>
        rw [List.isChain_cons_cons] at hL ⊢
        refine ⟨?_, ih (fun j hj => hF j (by simp [hj])) hL.2⟩
        have ha := hF a (by simp)
        obtain ⟨E, hE1, hE2⟩ := hfield a ha
        obtain ⟨m1, m2, -, m4⟩ := hL.1
        refine ⟨m1, m2, sx, fun pop hp q hq => ⟨(hsx' a ha pop hp q hq).1, (hsx' a ha pop hp q hq).2.2⟩, E, hE1, ?_⟩
        clear hE1
        generalize a.pops = l at m4 hE2
        generalize a2.pops = l' at m4
        induction m4 with
        | nil => exact .nil
        | @cons p p' ps ps' h1 _ ih2 =>
          refine .cons ?_ (ih2 (fun pop hp => hE2 pop (by simp [hp])))
          obtain ⟨e1, e2, e3, e4, e5⟩ := h1
          refine ⟨e1, e2, e3, e4, ?_⟩
          rw [e5]
          congr 2
          congr 1
          refine List.map_congr_left fun q hq => ?_
          dsimp only
          rw [hE2 p (by simp) q hq]
  exact key _ (fun j hj => hj) hch

end

/-! ### The two triangles -/

theorem kite_triangulation : Triangulation (by decide : 2 ≤ 3) (kite false) := by
  refine ⟨by decide, ⟨by decide, by decide, by decide, by decide, ?_, ?_, ?_⟩, by decide, by decide, ?_, ?_, ?_, ?_⟩
  · intro c f
    constructor
    · intro h
      simp only [kite, DMesh.topo] at h
      split at h
      · rename_i hf
        subst hf
        simp only [List.mem_cons, List.not_mem_nil, or_false] at h
        rcases h with rfl | rfl
        · exact ⟨[0, 1, 2], by decide, by decide⟩
        · exact ⟨[3, 4, 1], by decide, by decide⟩
      · split at h
        · rename_i hf
          simp only [List.mem_cons, List.not_mem_nil, or_false] at h
          subst h
          exact ⟨[0, 1, 2], by decide, by rcases hf with rfl | rfl <;> decide⟩
        · split at h
          · rename_i hf
            simp only [List.mem_cons, List.not_mem_nil, or_false] at h
            subst h
            exact ⟨[3, 4, 1], by decide, by rcases hf with rfl | rfl <;> decide⟩
          · cases h
    · rintro ⟨fs, h1, h2⟩
      simp only [kite, kiteCells, DMesh.topo, facetDict, List.map_cons, List.map_nil, List.mem_cons,
        List.not_mem_nil, or_false, Prod.mk.injEq] at h1
      rcases h1 with ⟨rfl, rfl⟩ | ⟨rfl, rfl⟩
      · simp only [List.mem_cons, List.not_mem_nil, or_false] at h2
        rcases h2 with rfl | rfl | rfl <;> decide
      · simp only [List.mem_cons, List.not_mem_nil, or_false] at h2
        rcases h2 with rfl | rfl | rfl <;> decide
  · intro f
    simp only [kite, DMesh.topo]
    split
    · decide
    · split
      · decide
      · split <;> decide
  · intro f
    simp only [kite, DMesh.topo]
    split
    · decide
    · split
      · decide
      · split <;> decide
  · have hon : ∀ (c : DSimplex ℚ) (k v : Nat), OfFacet 2 c k v ↔ ∃ j, j ≠ k ∧ c.verts[j]? = some v := by
      intro c k v; unfold OfFacet onFacet; simp
    intro c hc c' hc' k k' F hk hk' v
    simp only [kite, kiteCells, List.mem_cons, List.not_mem_nil, or_false] at hc hc'
    have hl : k < 3 := by
      have := (List.getElem?_eq_some_iff.1 hk).1
      rcases hc with rfl | rfl <;> exact this
    have hl' : k' < 3 := by
      have := (List.getElem?_eq_some_iff.1 hk').1
      rcases hc' with rfl | rfl <;> exact this
    have e3 : ∀ (a b e : Nat) (j : Nat) (w : Nat), [a, b, e][j]? = some w ↔ (j = 0 ∧ a = w) ∨ (j = 1 ∧ b = w) ∨ (j = 2 ∧ e = w) := by
      intro a b e j w
      match j with
      | 0 => simp
      | 1 => simp
      | 2 => simp
      | j + 3 => simp
    rcases hc with rfl | rfl <;> rcases hc' with rfl | rfl <;> interval_cases k <;> interval_cases k' <;>
      first
      | exact Iff.rfl
      | (exfalso; rw [← hk'] at hk; revert hk; decide)
      | (rw [hon, hon]; simp only [e3]; constructor <;> rintro ⟨j, hj, h⟩ <;>
          first
          | (exact ⟨0, by omega, by omega⟩)
          | (rcases h with ⟨rfl, rfl⟩ | ⟨rfl, rfl⟩ | ⟨rfl, rfl⟩ <;>
              first
              | (exact absurd rfl hj)
              | (exact ⟨0, by omega, by omega⟩)
              | (exact ⟨1, by omega, by omega⟩)
              | (exact ⟨2, by omega, by omega⟩)))
  · unfold onFacet; decide +kernel
  · unfold onFacet; decide +kernel
  · have key : ∀ (w : Fin 3 → ℚ) (q : Vec ℚ 2), (∀ i, 0 < w i) → ∑ i, w i = 1 →
        ((∀ c, q c = ∑ i, w i * corner (kite false) (kiteCells false)[0] i c) → 0 < q 1) ∧
        ((∀ c, q c = ∑ i, w i * corner (kite false) (kiteCells false)[1] i c) → q 1 < 0) := by
      intro w q hw hs
      have h0 := hw 0
      have h1 := hw 1
      have h2 := hw 2
      constructor
      · intro hq
        rw [hq 1, Fin.sum_univ_three]
        simp [corner, kite, kiteCells]
        linarith
      · intro hq
        rw [hq 1, Fin.sum_univ_three]
        simp [corner, kite, kiteCells]
        linarith
    intro c hc c' hc' hne p ⟨⟨w, hw, hs, hp⟩, w', hw', hs', hp'⟩
    simp only [kite, kiteCells, List.mem_cons, List.not_mem_nil, or_false] at hc hc'
    have a := key w p hw hs
    have b := key w' p hw' hs'
    rcases hc with rfl | rfl <;> rcases hc' with rfl | rfl
    · exact hne rfl
    · exact absurd (a.1 hp) (not_lt.2 (b.2 hp').le)
    · exact absurd (b.1 hp') (not_lt.2 (a.2 hp).le)
    · exact hne rfl

/-- The square with the corners (2,0), (1,1), (0,0), (1,-1). -/
def kiteDom (x : Vec ℚ 2) : Bool := decide (x 0 + x 1 ≤ 2 ∧ x 1 ≤ x 0 ∧ x 0 - x 1 ≤ 2 ∧ 0 ≤ x 0 + x 1)

theorem kite_convex : ConvexDomain (by decide : 2 ≤ 3) (kite false) kiteDom := by
  constructor
  · intro c hc x ⟨w, hw, hs, hx⟩
    have h0 := hw 0
    have h1 := hw 1
    have h2 := hw 2
    rw [Fin.sum_univ_three] at hs
    simp only [kite, kiteCells, List.mem_cons, List.not_mem_nil, or_false] at hc
    rcases hc with rfl | rfl
    all_goals
      have e0 := hx 0
      have e1 := hx 1
      rw [Fin.sum_univ_three] at e0 e1
      simp [corner, kite] at e0 e1
      rw [kiteDom, decide_eq_true_eq]
      refine ⟨?_, ?_, ?_, ?_⟩ <;> linarith
  · intro c hc k F hF hone i hi x hx
    rw [kiteDom, decide_eq_true_eq] at hx
    obtain ⟨x1, x2, x3, x4⟩ := hx
    have hl : k < 3 := by
      have := (List.getElem?_eq_some_iff.1 hF).1
      simp only [kite, kiteCells, List.mem_cons, List.not_mem_nil, or_false] at hc
      rcases hc with rfl | rfl <;> exact this
    unfold onFacet at hi
    simp only [kite, kiteCells, List.mem_cons, List.not_mem_nil, or_false, forall_eq_or_imp, forall_eq] at hc hone
    rcases hc with rfl | rfl <;> interval_cases k <;> cases hF <;> revert hone hi <;> fin_cases i <;>
      simp [dot, Fin.sum_univ_two, corner, kite, cutNormal, kiteGrad] <;> linarith

theorem kite_plasma : PlasmaOn kiteCfg (kite false) (kiteShape false) 3 kiteMarks kiteSolver (fun k => k) 2 := by
  refine ⟨rfl, rfl, kite_solves, rfl, ?_, fun _ => rfl, rfl, ⟨fun _ _ => rfl, fun _ _ _ _ h => h, fun _ h => h⟩⟩
  intro k c hk
  match k with
  | 0 => cases hk; rfl
  | 1 => cases hk; rfl
  | k + 2 => cases hk

theorem kite_sink (M : Mesh ℚ 2) (hm : ∀ F, M.Interior F → M.marker F = 0) :
    PlainBC M kiteSink := by
  refine ⟨fun st call n _ _ => ⟨_, rfl⟩, ?_, ?_, ?_⟩
  · intro value st call st' q' e
    simp only [kiteSink, bcAbsorb, Except.ok.injEq, Prod.mk.injEq] at e
    rw [← e.2]
  · intro st call st' q' e h1 h2
    exact absurd (hm _ h2) h1
  · intro st call st' q' n e _
    simp only [kiteSink, bcAbsorb, Except.ok.injEq, Prod.mk.injEq] at e
    rw [← e.2]

theorem kite_interior {M : Mesh ℚ 2}
    (e : buildMesh (by decide) (kite false) 0 (fun F => if F = 1 then 0 else 1) = .ok M) (F : Int) (h : M.Interior F) :
    M.marker F = 0 := by
  obtain ⟨M', e', hmk, hinv, -⟩ := build_ok (hg := by decide) kite_triangulation.manifold 0 (fun F => if F = 1 then 0 else 1)
  rw [e] at e'
  cases e'
  obtain ⟨ci, C, k, cj, hC, hF, hn, hne⟩ := h
  obtain ⟨c, hc, hi, row, hrow, rfl⟩ := hinv ci C hC
  simp only [made] at hF hn
  obtain ⟨hk, hF⟩ := List.getElem?_eq_some_iff.1 hF
  have hkl : k < row.length := by rw [← hrow.length_eq]; exact hk
  have hnb := hrow.get (i := k) hk hkl
  simp only [List.get_eq_getElem] at hnb
  rw [hF, (List.getElem?_eq_some_iff.1 hn).2] at hnb
  rw [hmk]
  rcases hnb with ⟨h1, -⟩ | ⟨h1, fs, hfs, hmem⟩
  · exact absurd h1 hne
  · have hF' : F ∈ c.facets := by rw [← hF]; exact List.getElem_mem hk
    clear hF hn hrow hC
    simp only [kite, kiteCells, DMesh.topo, facetDict, List.map_cons, List.map_nil, List.mem_cons, List.not_mem_nil,
      or_false, Prod.mk.injEq] at hfs hc
    have h1' : F = 1 := by
      rcases hc with rfl | rfl <;> rcases hfs with ⟨rfl, rfl⟩ | ⟨rfl, rfl⟩ <;> simp at hF' hmem hi h1 <;> omega
    exact if_pos h1'

theorem kite_run {i0 is} (hr : kiteRun 2 = .ok (i0, is)) :
    (i0 :: is).IsChain (PlasmaStep 1 (kite false) (kiteShape false).vol kiteMarks 1 2 0 1 kiteDom (fun _ => -1) kiteCfg 2) := by
  obtain ⟨M, s, e, hs, key⟩ := C97_plasma (τ := Unit) (V := ℚ) (ρ := Nat) (eps := (1 : ℚ)) kite_triangulation kite_convex 0 (pmarker := fun F => if F = 1 then 0 else 1)
    (by decide) one_pos (kite_meshed false) (kite_linked false) (dd := kiteBCs) rfl rfl
  have hM : kiteMesh = M := by unfold kiteMesh; rw [e]; rfl
  have hs' : s = kiteSolver := by
    have : createOn 1 (kite false) (kiteShape false) 3 kiteMarks kiteBCs = .ok kiteSolver := rfl
    rw [hs] at this
    cases this
    rfl
  subst hs'
  refine (key (bc := fun _ => kiteSink) (fun _ => kite_sink M (kite_interior e)) (maxCross := 10) (qom := fun _ => -1)
    (cfg := kiteCfg) (by rw [← hM]; rfl) (by simp [kiteCfg]) kite_plasma kite_goodCfg 2 (init := some kiteInit) ?_
    (kite_fresh 2) (by simp [kiteIdeal]) (by simp [kiteState]) ?_).1
  · intro gs hgs a ha q hq
    cases hgs
    simp only [kiteInit, List.mem_singleton] at ha
    subst ha
    have hull : ∀ (c : DSimplex ℚ) (x : Vec ℚ 2) (w : Fin 3 → ℚ), (∀ i, 0 ≤ w i) ∧ ∑ i, w i = 1 ∧
        (∀ e, x e = ∑ i, w i * corner (kite false) c i e) → InHull (corner (kite false) c) x := fun c x w h => ⟨w, h⟩
    simp only [List.mem_cons, List.not_mem_nil, or_false] at hq
    rcases hq with rfl | rfl | rfl
    · exact ⟨⟨(kiteCells false)[1], by simp [kite], rfl, hull _ _ ![1 / 4, 1 / 4, 1 / 2] (by decide +kernel)⟩, rfl⟩
    · exact ⟨⟨(kiteCells false)[1], by simp [kite], rfl, hull _ _ ![1 / 8, 1 / 8, 3 / 4] (by decide +kernel)⟩, rfl⟩
    · exact ⟨⟨(kiteCells false)[0], by simp [kite], rfl, hull _ _ ![1 / 4, 1 / 2, 1 / 4] (by decide +kernel)⟩, rfl⟩
  · have : (onCells (kite false) : Part ℚ 2 Nat → Bool) = onKite := by
      funext q
      simp only [onCells, onKite, kite, kiteCells, List.any_cons, List.any_nil, Bool.or_false]
      rw [Bool.eq_iff_iff]
      simp only [Bool.or_eq_true, decide_eq_true_eq]
      omega
    rw [this]
    exact hr

end Dt
