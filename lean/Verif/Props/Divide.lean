import Verif.Spec.Divide
import Verif.Props.Renumber
import Verif.Props.Acting

/-!
# Particles and species may be divided (C133)
-/

set_option linter.unusedSectionVars false

namespace Dt
open Spec Poisson Dt.Topology
open TimeLoop (Cfg)
variable {K V : Type} [Field K] [LinearOrder K] [IsStrictOrderedRing K] {g : Nat} {ρ σ τ φ φ' : Type}

section
variable {D : DMesh K g} {sh : Shape K g} {marker : Int → Int} {lo hi : Int} {v0 vN eps : K} {place : Vec K g → DSimplex K} {dom : Vec K g → Bool}
  {qom qom' : String → K} {w w' : ρ → K} {split : String → K → ρ → List (String × K × ρ)}

theorem sum_flatMap {A : Type} (f : A → List K) (l : List A) : (l.flatMap f).sum = (l.map (fun a => (f a).sum)).sum := by
  induction l with
  | nil => rfl
  | cons a l ih => simp [ih]

theorem pointsIn_labelled {weight : Part K g ρ → K} (hw : ∀ q, weight q = w q.rest) (factor : K) (i : Ideal K V (Part K g ρ) σ) :
    pointsIn weight factor (fun q => place q.x) i.pops = (labelled i).map (fun k => (k.2.1 * w k.2.2.2.2 * factor, k.2.2.1, place k.2.2.1)) := by
  unfold pointsIn labelled
  rw [List.map_flatMap]
  congr 1
  funext s
  rw [List.map_map]
  refine List.map_congr_left fun q _ => ?_
  simp [kin, hw]

theorem mem_labelled {i : Ideal K V (Part K g ρ) σ} {k} (h : k ∈ labelled i) : ∃ s ∈ i.pops, ∃ q ∈ s.st.items, k = (s.name, s.charge, kin q) := by
  unfold labelled at h
  obtain ⟨s, hs, h⟩ := List.mem_flatMap.1 h
  obtain ⟨q, hq, rfl⟩ := List.mem_map.1 h
  exact ⟨s, hs, q, hq, rfl⟩

/-- The charges of the parts make the same field. -/
theorem field_divided {factor : K} {L L' : List (String × K × Vec K g × Vec K g × ρ)} (hs : Divides w w' qom qom' split)
    (hL : L'.Perm (L.flatMap (partsOf split))) {E : DSimplex K → Vec K g}
    (h : IsFieldOf eps D sh.vol marker lo hi v0 vN (L'.map (fun k => (k.2.1 * w' k.2.2.2.2 * factor, k.2.2.1, place k.2.2.1))) E) :
    IsFieldOf eps D sh.vol marker lo hi v0 vN (L.map (fun k => (k.2.1 * w k.2.2.2.2 * factor, k.2.2.1, place k.2.2.1))) E := by
  refine ⟨h.1, fun v G val hv hG hval => ?_⟩
  rw [h.2 v G val hv hG ?_]
  · rw [List.map_map, List.map_map, (hL.map _).sum_eq, List.map_flatMap, sum_flatMap]
    congr 2
    refine List.map_congr_left fun k _ => ?_
    simp only [partsOf, List.map_map, Function.comp_def]
    have := hs.charge k.1 k.2.1 k.2.2.2.2
    rw [← this, ← List.sum_map_mul_right, ← List.sum_map_mul_right]
  · intro q hq
    obtain ⟨k', hk', rfl⟩ := List.mem_map.1 hq
    obtain ⟨k, hk, hp⟩ := List.mem_flatMap.1 (hL.subset hk')
    obtain ⟨r, hr, rfl⟩ := List.mem_map.1 hp
    have := hval _ (List.mem_map_of_mem (f := fun k => (k.2.1 * w k.2.2.2.2 * factor, k.2.2.1, place k.2.2.1)) hk)
    exact this

theorem placed_divided {i : Ideal K V (Part K g ρ) σ} {i' : Ideal K V (Part K g ρ) τ} (hi : Divided split i i') (hp : PlacedIn D place i) :
    PlacedIn D place i' := by
  intro pop' hpop' q' hq'
  have h1 : (pop'.name, pop'.charge, kin q') ∈ labelled i' := List.mem_flatMap.2 ⟨pop', hpop', List.mem_map_of_mem hq'⟩
  obtain ⟨k, hk, h2⟩ := List.mem_flatMap.1 (hi.subset h1)
  obtain ⟨r, hr, h3⟩ := List.mem_map.1 h2
  obtain ⟨s, hs, q, hq, rfl⟩ := mem_labelled hk
  have : q'.x = q.x := by
    have := congrArg (fun k => k.2.2.1) h3
    exact this.symm
  rw [this]
  exact hp s hs q hq

/-- What a step does to a particle. -/
def labelStep (dt : K) (qom : String → K) (dom : Vec K g → Bool) (E : Vec K g → Vec K g) (k : String × K × Vec K g × Vec K g × ρ) :
    Option (String × K × Vec K g × Vec K g × ρ) :=
  if k.2.1 = 0 then some k
  else if dom (leap dt (qom k.1) (some (E k.2.2.1)) k.2.2).1 then some (k.1, k.2.1, leap dt (qom k.1) (some (E k.2.2.1)) k.2.2) else none

theorem labelled_step {cfg : Cfg K V (Part K g ρ) σ φ} {E : DSimplex K → Vec K g} {l m : List (Pop K V (Part K g ρ))}
    (h : List.Forall₂ (fun s s' => s'.name = s.name ∧ s'.charge = s.charge ∧
      s'.st.items.map kin =
        (if s.charge = 0 then s.st.items.map kin
         else ((s.st.items.map kin).map (fun k => leap cfg.dt (qom s.name) (some (E (place k.1))) k)).filter (fun k => dom k.1)) ++
        ([] : List (Part K g ρ)).map kin) l m) :
    m.flatMap (fun s => s.st.items.map (fun q => (s.name, s.charge, kin q))) =
      (l.flatMap (fun s => s.st.items.map (fun q => (s.name, s.charge, kin q)))).filterMap (labelStep cfg.dt qom dom (fun x => E (place x))) := by
  induction h with
  | nil => rfl
  | @cons s s' l m h _ ih =>
    rw [List.flatMap_cons, List.flatMap_cons, List.filterMap_append, ih]
    congr 1
    have e : ∀ (s : Pop K V (Part K g ρ)) (a : String) (b : K), s.st.items.map (fun q => (a, b, kin q)) = (s.st.items.map kin).map (fun k => (a, b, k)) := by
      intro s a b
      rw [List.map_map]
      rfl
    rw [e, e, h.2.2, h.1, h.2.1]
    simp only [List.map_nil, List.append_nil]
    generalize s.st.items.map kin = ks
    split_ifs with h0
    · rw [List.filterMap_map]
      induction ks with
      | nil => rfl
      | cons k ks ih2 => simp [labelStep, h0]
    · rw [List.filterMap_map]
      induction ks with
      | nil => rfl
      | cons k ks ih2 =>
        simp only [List.map_cons, List.filter_cons, List.filterMap_cons, Function.comp, labelStep, if_neg h0] at ih2 ⊢
        split_ifs <;> simp [ih2]

theorem parts_step {dt : K} {E E' : Vec K g → Vec K g} (hs : Divides w w' qom qom' split) {L : List (String × K × Vec K g × Vec K g × ρ)}
    (hE : ∀ k ∈ L, E' k.2.2.1 = E k.2.2.1) :
    (L.flatMap (partsOf split)).filterMap (labelStep dt qom' dom E') = (L.filterMap (labelStep dt qom dom E)).flatMap (partsOf split) := by
  induction L with
  | nil => rfl
  | cons k L ih =>
    rw [List.flatMap_cons, List.filterMap_append, ih fun k hk => hE k (List.mem_cons_of_mem _ hk), List.filterMap_cons]
    have hk := hE k List.mem_cons_self
    have e : ∀ r ∈ split k.1 k.2.1 k.2.2.2.2, labelStep dt qom' dom E' (r.1, r.2.1, k.2.2.1, k.2.2.2.1, r.2.2) =
        (labelStep dt qom dom E k).map (fun j => (r.1, r.2.1, j.2.2.1, j.2.2.2.1, r.2.2)) := by
      intro r hr
      simp only [labelStep, hs.ratio k.1 k.2.1 k.2.2.2.2 r hr, hs.neutral k.1 k.2.1 k.2.2.2.2 r hr, hk, leap]
      split_ifs <;> simp_all
    have e2 : ∀ j, labelStep dt qom dom E k = some j → j.1 = k.1 ∧ j.2.1 = k.2.1 ∧ j.2.2.2.2 = k.2.2.2.2 := by
      intro j hj
      simp only [labelStep] at hj
      split_ifs at hj <;> cases hj <;> exact ⟨rfl, rfl, rfl⟩
    have e3 : (partsOf split k).filterMap (labelStep dt qom' dom E') =
        (split k.1 k.2.1 k.2.2.2.2).filterMap (fun r => (labelStep dt qom dom E k).map (fun j => (r.1, r.2.1, j.2.2.1, j.2.2.2.1, r.2.2))) := by
      unfold partsOf
      rw [List.filterMap_map]
      exact List.filterMap_congr fun r hr => e r hr
    rw [e3]
    cases hj : labelStep dt qom dom E k with
    | none => simp
    | some j =>
      obtain ⟨e4, e5, e6⟩ := e2 j hj
      simp [partsOf, e4, e5, e6]

theorem step_divided (he : 0 < eps) (hv : ∀ c ∈ D.cells, 0 < sh.vol c) (hs : Divides w w' qom qom' split)
    {cfg : Cfg K V (Part K g ρ) σ φ} {cfg' : Cfg K V (Part K g ρ) τ φ'} (hdt : cfg'.dt = cfg.dt) (hw : ∀ q, cfg.A.weight q = w q.rest)
    (hw' : ∀ q, cfg'.A.weight q = w' q.rest) (hf : cfg'.factor = cfg.factor)
    {i j : Ideal K V (Part K g ρ) σ} {i' j' : Ideal K V (Part K g ρ) τ} (hp : PlacedIn D place i) (hdiv : Divided split i i')
    (hj : MovedIn eps D sh.vol marker lo hi v0 vN dom qom cfg (fun _ => []) i j)
    (hj' : MovedIn eps D sh.vol marker lo hi v0 vN dom qom' cfg' (fun _ => []) i' j') : Divided split j j' := by
  obtain ⟨E, hE, hm⟩ := movedIn_place hp hj
  obtain ⟨E', hE', hm'⟩ := movedIn_place (placed_divided hdiv hp) hj'
  have hull := placed_hull (weight := cfg.A.weight) (factor := cfg.factor.getD 1) hp
  rw [pointsIn_labelled hw] at hE hull
  rw [pointsIn_labelled hw', hf] at hE'
  have huniq := C97_field_unique he hv hull hE (field_divided hs hdiv hE')
  have e := labelled_step hm
  have e' := labelled_step hm'
  unfold Divided
  rw [show labelled j = _ from e, show labelled j' = _ from e', hdt, ← parts_step (E' := fun x => E' (place x)) hs]
  · exact hdiv.filterMap _
  · intro k hk
    obtain ⟨s, hs, q, hq, rfl⟩ := mem_labelled hk
    exact (huniq _ (hp s hs q hq).1).symm

theorem run_divided (he : 0 < eps) (hv : ∀ c ∈ D.cells, 0 < sh.vol c) (hs : Divides w w' qom qom' split)
    {cfg : Cfg K V (Part K g ρ) σ φ} {cfg' : Cfg K V (Part K g ρ) τ φ'} (hdt : cfg'.dt = cfg.dt) (hw : ∀ q, cfg.A.weight q = w q.rest)
    (hw' : ∀ q, cfg'.A.weight q = w' q.rest) (hf : cfg'.factor = cfg.factor) :
    ∀ {is : List (Ideal K V (Part K g ρ) σ)} {is' : List (Ideal K V (Part K g ρ) τ)} {i0 i0'},
    (i0 :: is).IsChain (MovedIn eps D sh.vol marker lo hi v0 vN dom qom cfg (fun _ => [])) →
    (i0' :: is').IsChain (MovedIn eps D sh.vol marker lo hi v0 vN dom qom' cfg' (fun _ => [])) →
    is'.length = is.length → (∀ j ∈ i0 :: is, PlacedIn D place j) → Divided split i0 i0' → List.Forall₂ (Divided split) (i0 :: is) (i0' :: is') := by
  intro is
  induction is with
  | nil =>
    intro is' i0 i0' _ _ hl _ h0
    rw [List.length_eq_zero_iff.1 hl]
    exact .cons h0 .nil
  | cons i1 is ih =>
    intro is' i0 i0' hc hc' hl hp h0
    cases is' with
    | nil => simp at hl
    | cons i1' is' =>
      rw [List.isChain_cons_cons] at hc hc'
      exact .cons h0 (ih hc.2 hc'.2 (by simpa using hl) (fun j hj => hp j (List.mem_cons_of_mem _ hj))
        (step_divided he hv hs hdt hw hw' hf (hp i0 List.mem_cons_self) h0 hc.1 hc'.1))

end

section
open TimeLoop
variable {hg : g ≤ 3} {D : DMesh K g} {sh : Shape K g} {N : Nat} {pmarker marker : Int → Int} {lo hi : Int} {v0 vN eps : K}

/-- C133.  Two simulations on the same mesh, the second with the particles of the first divided into parts of the same total charge, which may have
another weight and belong to other species with the same charge-to-mass ratio: after each step the particles of the second are the parts of those of the first.  Each
particle of the first is to be in one cell only, not between two. -/
theorem C133_run (hD : Triangulation hg D) {dom : Vec K g → Bool} (hdom : ConvexDomain hg D dom) (junk : Int)
    (hpm : ∀ c ∈ D.cells, ∀ F ∈ c.facets, (∀ c' ∈ D.cells, F ∈ c'.facets → c'.index = c.index) → pmarker F ≠ 0)
    (he : 0 < eps) (hm : Meshed D sh N) (hl : ∀ i ≤ N, Linked D (fun i => OnSide D marker lo i ∨ OnSide D marker hi i) i)
    {dd : List (String × Int × Val K)}
    (h1 : dd.lookup "rmin" = some (lo, .num v0)) (h2 : dd.lookup "rmax" = some (hi, .num vN)) :
    ∃ M s, buildMesh hg D junk pmarker = .ok M ∧ createOn eps D sh N marker dd = .ok s ∧
      ∀ {bc bc' : String → Int → τ → BCall K g g ρ → Except Err (τ × Part K g ρ)}, (∀ sn, PlainBC M (bc sn)) → (∀ sn, PlainBC M (bc' sn)) →
      ∀ {maxCross maxCross' : Nat} {qom qom' : String → K} {cfg cfg' : Cfg K V (Part K g ρ) (τ × Vec K g) (List (Vec K g))},
        cfg.move = pyMove (le_refl g) M bc maxCross cfg.dt qom (fun _ f q => (f[q.cell.toNat]?).map (fun e => -e)) →
        cfg'.move = pyMove (le_refl g) M bc' maxCross' cfg'.dt qom' (fun _ f q => (f[q.cell.toNat]?).map (fun e => -e)) →
        ∀ {w w' : ρ → K}, cfg'.dt = cfg.dt → (∀ q, cfg.A.weight q = w q.rest) → (∀ q, cfg'.A.weight q = w' q.rest) → cfg'.factor = cfg.factor →
        cfg.sources = [] → cfg'.sources = [] → ∀ {split : String → K → ρ → List (String × K × ρ)}, Divides w w' qom qom' split →
        ∀ {d d' : Nat → Nat} {C C' sl sl' : Nat}, PlasmaOn cfg D sh N marker s d C → PlasmaOn cfg' D sh N marker s d' C' → GoodCfg cfg → GoodCfg cfg' →
        ∀ {z z' : Species.HRow K} (n : Nat) {init init' : Option (List (String × List (Part K g ρ)))},
        (∀ gs, init = some gs → ∀ a ∈ gs, ∀ q ∈ a.2, InSimplex D q) → (∀ gs, init' = some gs → ∀ a ∈ gs, ∀ q ∈ a.2, InSimplex D q) →
        ∀ {st st' : State K V (Part K g ρ) (τ × Vec K g) (List (Vec K g))} {i i' : Ideal K V (Part K g ρ) (τ × Vec K g)} {b b' : List K},
        Fresh sl (N + 1) C n z st i b → Fresh sl' (N + 1) C' n z' st' i' b' → (i.pops.map (·.name)).Nodup → (i'.pops.map (·.name)).Nodup →
        (st.writer = none → cfg.partEvery = none) → (st'.writer = none → cfg'.partEvery = none) →
        ∀ {i0 k0 : Ideal K V (Part K g ρ) (τ × Vec K g)} {is ks : List (Ideal K V (Part K g ρ) (τ × Vec K g))},
          Ideal.run cfg sl (N + 1) (onCells D) init b n i = .ok (i0, is) → Ideal.run cfg' sl' (N + 1) (onCells D) init' b' n i' = .ok (k0, ks) →
          ∀ {place : Vec K g → DSimplex K}, (∀ j ∈ i0 :: is, PlacedIn D place j) → Divided split i0 k0 →
          List.Forall₂ (Divided split) (i0 :: is) (k0 :: ks) := by
  obtain ⟨M, s, e, hs, key⟩ := C97_plasma (τ := τ) (ρ := ρ) (V := V) hD hdom junk hpm he hm hl h1 h2
  refine ⟨M, s, e, hs, ?_⟩
  intro bc bc' hbc hbc' mc mc' qom qom' cfg cfg' hmv hmv' w w' hdt hw hw' hfac hns hns' split hsp d d' C C' sl sl' hP hP' hc hc' z z' n init init' hin hin'
    st st' i i' b b' hf hf' hn hn' hwr hwr' i0 k0 is ks hr hr' place hpl h0
  have a := (key hbc hmv (by rw [hns]; simp) hP hc n hin hf hn hwr hr).1
  have a' := (key hbc' hmv' (by rw [hns']; simp) hP' hc' n hin' hf' hn' hwr' hr').1
  have l := C68_run hc (hP.goodMesh hm) n init hf hwr
  have l' := C68_run hc' (hP'.goodMesh hm) n init' hf' hwr'
  rw [hr] at l
  rw [hr'] at l'
  refine run_divided (marker := marker) (lo := lo) (hi := hi) (v0 := v0) (vN := vN) (dom := dom) he hm.vol hsp hdt hw hw' hfac (a.imp fun i j h => ?_) (a'.imp fun i j h => ?_) (l'.1.trans l.1.symm) hpl h0
  · have := h.2.2
    simp only [made_none hns] at this
    exact this
  · have := h.2.2
    simp only [made_none hns'] at this
    exact this

/-- C133.  The same for simulations with the compiled movers and containers. -/
theorem C133_compiled (hD : Triangulation hg D) {nVerts : Nat} (hnum : Numbered D nVerts) {dom : Vec K g → Bool} (hdom : ConvexDomain hg D dom) (junk : Int)
    (hpm : ∀ c ∈ D.cells, ∀ F ∈ c.facets, (∀ c' ∈ D.cells, F ∈ c'.facets → c'.index = c.index) → pmarker F ≠ 0)
    (he : 0 < eps) (hm : Meshed D sh N) (hl : ∀ i ≤ N, Linked D (fun i => OnSide D marker lo i ∨ OnSide D marker hi i) i)
    {dd : List (String × Int × Val K)}
    (h1 : dd.lookup "rmin" = some (lo, .num v0)) (h2 : dd.lookup "rmax" = some (hi, .num vN)) :
    ∃ M cm s, buildMesh hg D junk pmarker = .ok M ∧ buildCpp D nVerts pmarker = .ok cm ∧ createOn eps D sh N marker dd = .ok s ∧
      ∀ {L L' : Layout K g}, L.Right → L'.Right →
      ∀ {bc bc' : String → Int → τ → BCall K g g ρ → Except Err (τ × Part K g ρ)}, (∀ sn, PlainBC M (bc sn)) → (∀ sn, PlainBC M (bc' sn)) →
      ∀ {maxCross maxCross' : Nat} {qom qom' : String → K} {cfg cfg' : Cfg K V (Part K g ρ) ((τ × Vec K g) × Scratch K) (List (Vec K g))},
        cfg.move = CppLoop.cppMove (le_refl g) L cm bc maxCross cfg.dt qom (fun _ f q => (f[q.cell.toNat]?).map (fun e => -e)) →
        cfg'.move = CppLoop.cppMove (le_refl g) L' cm bc' maxCross' cfg'.dt qom' (fun _ f q => (f[q.cell.toNat]?).map (fun e => -e)) →
        ∀ {w w' : ρ → K}, cfg'.dt = cfg.dt → (∀ q, cfg.A.weight q = w q.rest) → (∀ q, cfg'.A.weight q = w' q.rest) → cfg'.factor = cfg.factor →
        cfg.sources = [] → cfg'.sources = [] → ∀ {split : String → K → ρ → List (String × K × ρ)}, Divides w w' qom qom' split →
        ∀ {d d' : Nat → Nat} {C C' sl sl' : Nat}, PlasmaOn cfg D sh N marker s d C → PlasmaOn cfg' D sh N marker s d' C' → 2 ≤ sl → 2 ≤ sl' →
        CppLoop.GoodEvery cfg → CppLoop.GoodEvery cfg' →
        ∀ {skip skip' : Int}, skip ≠ 0 → skip' ≠ 0 → ∀ (n : Nat) {init init' : Option (List (String × List (Part K g ρ)))},
        (∀ gs, init = some gs → ∀ a ∈ gs, ∀ q ∈ a.2, InSimplex D q) → (∀ gs, init' = some gs → ∀ a ∈ gs, ∀ q ∈ a.2, InSimplex D q) →
        ∀ {st st' : CppLoop.State K V (Part K g ρ) ((τ × Vec K g) × Scratch K) (List (Vec K g))}
          {i i' : Ideal K V (Part K g ρ) ((τ × Vec K g) × Scratch K)} {b b' : List K},
        CppLoop.Fresh sl (N + 1) C skip st i b → CppLoop.Fresh sl' (N + 1) C' skip' st' i' b' → (i.pops.map (·.name)).Nodup → (i'.pops.map (·.name)).Nodup →
        (st.file = none → cfg.partEvery = none) → (st'.file = none → cfg'.partEvery = none) →
        ∀ {i0 k0 : Ideal K V (Part K g ρ) ((τ × Vec K g) × Scratch K)} {is ks : List (Ideal K V (Part K g ρ) ((τ × Vec K g) × Scratch K))},
          Comp.run cfg sl (N + 1) (onCells D) init b n i = .ok (i0, is) → Comp.run cfg' sl' (N + 1) (onCells D) init' b' n i' = .ok (k0, ks) →
          ∀ {place : Vec K g → DSimplex K}, (∀ j ∈ i0 :: is, PlacedIn D place j) → Divided split i0 k0 →
          List.Forall₂ (Divided split) (i0 :: is) (k0 :: ks) := by
  obtain ⟨M, cm, s, e, ecm, hs, key⟩ := C120_plasma (τ := τ) (ρ := ρ) (V := V) hD hnum hdom junk hpm he hm hl h1 h2
  refine ⟨M, cm, s, e, ecm, hs, ?_⟩
  intro L L' hL hL' bc bc' hbc hbc' mc mc' qom qom' cfg cfg' hmv hmv' w w' hdt hw hw' hfac hns hns' split hsp d d' C C' sl sl' hP hP' h2 h2' hc hc' skip skip'
    hsk hsk' n init init' hin hin' st st' i i' b b' hf hf' hn hn' hwr hwr' i0 k0 is ks hr hr' place hpl h0
  have a := ((key hL hbc hmv (by rw [hns]; simp) hP h2 hc hsk n hin hf hn hwr).1 hr).1
  have a' := ((key hL' hbc' hmv' (by rw [hns']; simp) hP' h2' hc' hsk' n hin' hf' hn' hwr').1 hr').1
  have l := C109_run h2 hc (hP.goodMesh hm) hsk n init hf hwr
  have l' := C109_run h2' hc' (hP'.goodMesh hm) hsk' n init' hf' hwr'
  rw [hr] at l
  rw [hr'] at l'
  refine run_divided (marker := marker) (lo := lo) (hi := hi) (v0 := v0) (vN := vN) (dom := dom) he hm.vol hsp hdt hw hw' hfac (a.imp fun i j h => ?_) (a'.imp fun i j h => ?_) (l'.1.trans l.1.symm) hpl h0
  · have := h.2.2
    simp only [comp_made_none hns] at this
    exact this
  · have := h.2.2
    simp only [comp_made_none hns'] at this
    exact this

end

/-! ### Electrons divided into two species -/

section Demo
open TimeLoop

theorem weighed_plasma : PlasmaOn weighedCfg (kite false) (kiteShape false) 3 kiteMarks kiteSolver (fun k => k) 2 := by
  obtain ⟨a1, a2, a3, a4, a5, -, a7, a8⟩ := kite_plasma
  exact ⟨a1, a2, a3, a4, a5, fun _ => rfl, a7, a8⟩

def twoIdeal : Ideal ℚ ℚ KitePart (Unit × Vec ℚ 2) :=
  ⟨0, 0, [⟨"e", -1, 1, 1, ⟨[], false⟩⟩, ⟨"f", -2, 2, 2, ⟨[], false⟩⟩], ((), ![0, 0]), []⟩

def twoState (n : Nat) : State ℚ ℚ KitePart (Unit × Vec ℚ 2) (List (Vec ℚ 2)) := { kiteState n with
  sps := [⟨"e", SAP.new 2 (kitePart 0 0 0 0 0), -1, 1, 1, [0, 0, 0, 0], [0, 0]⟩, ⟨"f", SAP.new 2 (kitePart 0 0 0 0 0), -2, 2, 2, [0, 0, 0, 0], [0, 0]⟩] }

theorem two_fresh (n : Nat) : Fresh 2 (3 + 1) 2 n ⟨0, 0, []⟩ (twoState n) twoIdeal [0, 0, 0, 0] := by
  refine ⟨rfl, rfl, rfl, rfl, rfl, ?_, ?_, ?_, ?_, rfl, rfl⟩
  · exact .cons ⟨rfl, rfl, rfl, rfl, ⟨SAP.Reachable.new 2 _ (by decide), SAP.new_sim 2 _ (by decide), rfl⟩,
      rfl, rfl⟩ (.cons ⟨rfl, rfl, rfl, rfl, ⟨SAP.Reachable.new 2 _ (by decide), SAP.new_sim 2 _ (by decide), rfl⟩,
      rfl, rfl⟩ .nil)
  · intro p hp
    simp only [twoIdeal, List.mem_cons, List.not_mem_nil, or_false] at hp
    rcases hp with rfl | rfl <;> rfl
  · exact Or.inr ⟨_, rfl, newWriter_ready 2 2 (by decide) 0, rfl, by simp [Output.newWriter, twoIdeal]⟩
  · simp [HistIs, twoState, kiteState]

/-- An electron of weight 7/28 becomes one of weight 3/28 and a particle with twice the charge and mass and of weight 2/28. -/
def twoSplit (n : String) (ch : ℚ) (r : Nat) : List (String × ℚ × Nat) := if ch = -1 ∧ r = 7 then [("e", -1, 3), ("f", -2, 2)] else [(n, ch, r)]

theorem two_divides : Divides (fun r : Nat => (r : ℚ) / 28) (fun r : Nat => (r : ℚ) / 28) (fun _ => -1) (fun _ => -1) twoSplit := by
  constructor
  · intro n ch r
    unfold twoSplit
    split_ifs with h
    · rw [h.1, h.2]
      norm_num
    · simp
  · intros
    rfl
  · intro n ch r p hp
    unfold twoSplit at hp
    split_ifs at hp with h
    · simp only [List.mem_cons, List.not_mem_nil, or_false] at hp
      rw [h.1]
      rcases hp with rfl | rfl <;> norm_num
    · rw [List.mem_singleton.1 hp]

def twoInit : List (String × List KitePart) :=
  [("e", [{ kitePart 1 (-1 / 2) 0 1 1 with rest := 3 }, { kitePart 1 (1 / 2) 0 (-1 / 4) 0 with rest := 3 }]),
   ("f", [{ kitePart 1 (1 / 2) 0 (-1 / 4) 0 with rest := 2 }, { kitePart 1 (-1 / 2) 0 1 1 with rest := 2 }])]

theorem two_in : ∀ gs', some twoInit = some gs' → ∀ a ∈ gs', ∀ q ∈ a.2, InSimplex (kite false) q := by
  intro gs' hgs a ha q hq
  cases hgs
  have key : ∀ q : KitePart, kiteDom q.x = true → q.x 1 ≠ 0 → q.cell = (kitePlace q.x).index → q.del = false → InSimplex (kite false) q :=
    fun q h h1 h2 h3 => ⟨⟨kitePlace q.x, (kite_placed h h1).1, h2.symm, (kite_placed h h1).2.1⟩, h3⟩
  have all : ∀ a ∈ twoInit, ∀ q ∈ a.2, kiteDom q.x = true ∧ q.x 1 ≠ 0 ∧ q.cell = (kitePlace q.x).index ∧ q.del = false := by
    decide +kernel
  obtain ⟨h1, h2, h3, h4⟩ := all a ha q hq
  exact key q h1 h2 h3 h4

/-- What is to be checked of the runs of the two simulations, in terms that can be computed. -/
def twoCheck {σ : Type} (is is' : List (Ideal ℚ ℚ KitePart σ)) : Bool :=
  decide (∀ i ∈ is, ∀ pop ∈ i.pops, ∀ q ∈ pop.st.items, kiteDom q.x = true ∧ q.x 1 ≠ 0) &&
  (match is.head?, is'.head? with
   | some j, some k => decide ((labelled k).Perm ((labelled j).flatMap (partsOf twoSplit)))
   | _, _ => false)

theorem two_checked {σ : Type} {i0 k0 : Ideal ℚ ℚ KitePart σ} {is ks : List (Ideal ℚ ℚ KitePart σ)} (h : twoCheck (i0 :: is) (k0 :: ks) = true) :
    (∀ j ∈ i0 :: is, PlacedIn (kite false) kitePlace j) ∧ Divided twoSplit i0 k0 := by
  unfold twoCheck at h
  simp only [List.head?_cons, Bool.and_eq_true, decide_eq_true_eq] at h
  exact ⟨fun j hj pop hp q hq => kite_placed (h.1 j hj pop hp q hq).1 (h.1 j hj pop hp q hq).2, h.2⟩

def oneRun := Ideal.run weighedCfg 2 4 onKite (some pairInit) [0, 0, 0, 0] 2 kiteIdeal
def twoRun := Ideal.run weighedCfg 2 4 onKite (some twoInit) [0, 0, 0, 0] 2 twoIdeal

/-- C133 applies: the parts stay together. -/
example : ∃ i0 is k0 ks, oneRun = .ok (i0, is) ∧ twoRun = .ok (k0, ks) ∧ List.Forall₂ (Divided twoSplit) (i0 :: is) (k0 :: ks) := by
  have a : (oneRun.toOption.bind fun r => twoRun.toOption.map fun r' => twoCheck (r.1 :: r.2) (r'.1 :: r'.2)) = some true := by
    decide +kernel
  obtain ⟨i0, is, hr⟩ : ∃ i0 is, oneRun = .ok (i0, is) := by
    cases h : oneRun with
    | error e => rw [h] at a; cases a
    | ok r => exact ⟨r.1, r.2, rfl⟩
  obtain ⟨k0, ks, hr'⟩ : ∃ i0 is, twoRun = .ok (i0, is) := by
    cases h : twoRun with
    | error e => rw [hr, h] at a; cases a
    | ok r => exact ⟨r.1, r.2, rfl⟩
  refine ⟨i0, is, k0, ks, hr, hr', ?_⟩
  rw [hr, hr'] at a
  simp only [Except.toOption, Option.map_some, Option.bind_some, Option.some.injEq] at a
  obtain ⟨c1, c2⟩ := two_checked a
  obtain ⟨M, s, e, hs, key⟩ := C133_run (τ := Unit) (V := ℚ) (ρ := Nat) (eps := (1 : ℚ)) kite_triangulation kite_convex 0
    (pmarker := fun F => if F = 1 then 0 else 1) (by decide) one_pos (kite_meshed false) (kite_linked false) (dd := kiteBCs) rfl rfl
  have hM : kiteMesh = M := by unfold kiteMesh; rw [e]; rfl
  have hs' : s = kiteSolver := by
    have : createOn 1 (kite false) (kiteShape false) 3 kiteMarks kiteBCs = .ok kiteSolver := rfl
    rw [hs] at this
    cases this
    rfl
  subst hs'
  unfold oneRun at hr
  unfold twoRun at hr'
  rw [← onCells_kite] at hr hr'
  exact key (bc := fun _ => kiteSink) (bc' := fun _ => kiteSink) (fun _ => kite_sink M (kite_interior e)) (fun _ => kite_sink M (kite_interior e))
    (maxCross := 10) (maxCross' := 10) (qom := fun _ => -1) (qom' := fun _ => -1) (cfg := weighedCfg) (cfg' := weighedCfg) (by rw [← hM]; rfl)
    (by rw [← hM]; rfl) rfl (fun _ => rfl) (fun _ => rfl) rfl rfl rfl two_divides weighed_plasma weighed_plasma weighed_goodCfg weighed_goodCfg 2
    (pair_in (.inl rfl)) two_in (kite_fresh 2) (two_fresh 2) (by simp [kiteIdeal]) (by decide) (by simp [kiteState]) (by simp [twoState, kiteState])
    hr hr' c1 c2

def twoCppIdeal : Ideal ℚ ℚ KitePart ((Unit × Vec ℚ 2) × Scratch ℚ) :=
  ⟨0, 0, [⟨"e", -1, 1, 1, ⟨[], false⟩⟩, ⟨"f", -2, 2, 2, ⟨[], false⟩⟩], (((), ![0, 0]), fun _ => 99), []⟩

def twoCppState : CppLoop.State ℚ ℚ KitePart ((Unit × Vec ℚ 2) × Scratch ℚ) (List (Vec ℚ 2)) := { kiteCppState with
  sps := [⟨"e", CSAP.new 2 (kitePart 0 0 0 0 0), -1, 1, 1, [0, 0, 0, 0], [0, 0]⟩, ⟨"f", CSAP.new 2 (kitePart 0 0 0 0 0), -2, 2, 2, [0, 0, 0, 0], [0, 0]⟩] }

theorem twoCpp_fresh : CppLoop.Fresh 2 (3 + 1) 2 2 twoCppState twoCppIdeal [0, 0, 0, 0] := by
  refine ⟨rfl, rfl, rfl, rfl, rfl, ?_, ?_, ?_, ?_, rfl, rfl⟩
  · have h := CppProgram.start_rel (sl := 2) (by decide) (kitePart 0 0 0 0 0) [true]
    cases h with
    | cons h _ => exact .cons ⟨rfl, rfl, rfl, rfl, h, rfl, rfl⟩ (.cons ⟨rfl, rfl, rfl, rfl, h, rfl, rfl⟩ .nil)
  · intro p hp
    simp only [twoCppIdeal, List.mem_cons, List.not_mem_nil, or_false] at hp
    rcases hp with rfl | rfl <;> rfl
  · exact .inr ⟨-1, rfl, by decide⟩
  · exact .inr rfl

def oneCppRun := Comp.run weighedCppCfg 2 4 onKite (some pairInit) [0, 0, 0, 0] 2 kiteCppIdeal
def twoCppRun := Comp.run weighedCppCfg 2 4 onKite (some twoInit) [0, 0, 0, 0] 2 twoCppIdeal

/-- C133 applies in compiled code. -/
example : ∃ i0 is k0 ks, oneCppRun = .ok (i0, is) ∧ twoCppRun = .ok (k0, ks) ∧ List.Forall₂ (Divided twoSplit) (i0 :: is) (k0 :: ks) := by
  have a : (oneCppRun.toOption.bind fun r => twoCppRun.toOption.map fun r' => twoCheck (r.1 :: r.2) (r'.1 :: r'.2)) = some true := by
    decide +kernel
  obtain ⟨i0, is, hr⟩ : ∃ i0 is, oneCppRun = .ok (i0, is) := by
    cases h : oneCppRun with
    | error e => rw [h] at a; cases a
    | ok r => exact ⟨r.1, r.2, rfl⟩
  obtain ⟨k0, ks, hr'⟩ : ∃ i0 is, twoCppRun = .ok (i0, is) := by
    cases h : twoCppRun with
    | error e => rw [hr, h] at a; cases a
    | ok r => exact ⟨r.1, r.2, rfl⟩
  refine ⟨i0, is, k0, ks, hr, hr', ?_⟩
  rw [hr, hr'] at a
  simp only [Except.toOption, Option.map_some, Option.bind_some, Option.some.injEq] at a
  obtain ⟨c1, c2⟩ := two_checked a
  obtain ⟨M, cm, s, e, ecm, hs, key⟩ := C133_compiled (τ := Unit) (V := ℚ) (ρ := Nat) (eps := (1 : ℚ)) kite_triangulation kite_numbered kite_convex 0
    (pmarker := fun F => if F = 1 then 0 else 1) (by decide) one_pos (kite_meshed false) (kite_linked false) (dd := kiteBCs) rfl rfl
  have hM : kiteCpp = cm := by unfold kiteCpp; rw [ecm]; rfl
  have hs' : s = kiteSolver := by
    have : createOn 1 (kite false) (kiteShape false) 3 kiteMarks kiteBCs = .ok kiteSolver := rfl
    rw [hs] at this
    cases this
    rfl
  subst hs'
  have hpl : PlasmaOn weighedCppCfg (kite false) (kiteShape false) 3 kiteMarks kiteSolver (fun k => k) 2 := by
    obtain ⟨a1, a2, a3, a4, a5, a6, a7, a8⟩ := weighed_plasma
    exact ⟨a1, a2, a3, a4, a5, a6, a7, a8⟩
  have hev : CppLoop.GoodEvery weighedCppCfg :=
    ⟨by simp [weighedCppCfg, kiteCppCfg], by simp [weighedCppCfg, kiteCppCfg], by simp [weighedCppCfg, kiteCppCfg]⟩
  unfold oneCppRun at hr
  unfold twoCppRun at hr'
  rw [← onCells_kite] at hr hr'
  exact key (L := layoutXY) (L' := layoutXY) C66_layouts.2.1 C66_layouts.2.1 (bc := fun _ => kiteSink) (bc' := fun _ => kiteSink)
    (fun _ => kite_sink M (kite_interior e)) (fun _ => kite_sink M (kite_interior e)) (maxCross := 10) (maxCross' := 10) (qom := fun _ => -1)
    (qom' := fun _ => -1) (cfg := weighedCppCfg) (cfg' := weighedCppCfg) (by rw [← hM]; rfl) (by rw [← hM]; rfl) rfl (fun _ => rfl) (fun _ => rfl)
    rfl rfl rfl two_divides hpl hpl (le_refl 2) (le_refl 2) hev hev (skip := 2) (skip' := 2) (by decide) (by decide) 2 (pair_in (.inl rfl)) two_in
    kiteCpp_fresh twoCpp_fresh (by simp [kiteCppIdeal]) (by decide) (by simp [kiteCppState]) (by simp [twoCppState, kiteCppState]) hr hr' c1 c2

end Demo
end Dt
