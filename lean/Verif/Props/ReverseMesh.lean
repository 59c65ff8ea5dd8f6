import Verif.Spec.ReverseMesh
import Verif.Props.CppPlasma
import Verif.Props.Reverse

/-!
# Running a simulation on a triangulation backwards (C131)
-/

set_option linter.unusedSectionVars false

namespace Dt
open Spec Poisson Dt.Topology
open TimeLoop (Cfg)
variable {K V : Type} [Field K] [LinearOrder K] [IsStrictOrderedRing K] {g : Nat} {ρ σ φ : Type}

section
variable {D : DMesh K g} {sh : Shape K g} {N : Nat} {marker : Int → Int} {lo hi : Int} {v0 vN eps : K} {dom : Vec K g → Bool}
  {place : Vec K g → DSimplex K} {qom : String → K} {cfg cfg' : Cfg K V (Part K g ρ) σ φ}

theorem map_through {A B C : Type} {f : A → B} {h : A → C} (hfh : ∀ a b, f a = f b → h a = h b) {l l' : List A} (e : l'.map f = l.map f) :
    l'.map h = l.map h := by
  induction l generalizing l' with
  | nil => rw [List.map_eq_nil_iff.1 e]
  | cons a l ih =>
    cases l' with
    | nil => cases e
    | cons a' l' =>
      simp only [List.map_cons, List.cons.injEq] at e ⊢
      exact ⟨hfh _ _ e.1, ih e.2⟩

/-- The charges are given by charge numbers, positions and weights. -/
theorem points_alike {weight : Part K g ρ → K} (hwt : ∀ q q', q.rest = q'.rest → weight q = weight q') (factor : K) {l l' : List (Pop K V (Part K g ρ))}
    (h : List.Forall₂ (fun s s' => s'.charge = s.charge ∧ s'.st.items.map (fun q => (q.x, q.rest)) = s.st.items.map (fun q => (q.x, q.rest))) l l') :
    pointsIn weight factor (fun q => place q.x) l' = pointsIn weight factor (fun q => place q.x) l := by
  unfold pointsIn
  induction h with
  | nil => rfl
  | @cons s s' _ _ h0 _ ih =>
    rw [List.flatMap_cons, List.flatMap_cons, ih, h0.1]
    congr 1
    refine map_through (f := fun q : Part K g ρ => (q.x, q.rest)) (h := fun q => (s.charge * weight q * factor, q.x, place q.x)) (fun a b e => ?_) h0.2
    simp only [Prod.mk.injEq] at e
    rw [hwt a b e.2, e.1]

theorem reversed_points {weight : Part K g ρ → K} (hwt : ∀ q q', q.rest = q'.rest → weight q = weight q') (factor : K) {dt : K} {E : DSimplex K → Vec K g}
    {l l' : List (Pop K V (Part K g ρ))}
    (h : List.Forall₂ (fun s s' => s'.name = s.name ∧ s'.charge = s.charge ∧
      s'.st.items.map kin = if s.charge = 0 then s.st.items.map kin
        else (s.st.items.map kin).map (fun k => flippedIn dt (qom s.name) (E (place k.1)) k)) l l') :
    pointsIn weight factor (fun q => place q.x) l' = pointsIn weight factor (fun q => place q.x) l := by
  refine points_alike hwt factor (h.imp ?_)
  rintro s s' ⟨-, e2, e3⟩
  refine ⟨e2, ?_⟩
  have h0 : ∀ l : List (Part K g ρ), l.map (fun q => (q.x, q.rest)) = (l.map kin).map (fun k => (k.1, k.2.2)) := fun l => by
    rw [List.map_map]; rfl
  rw [h0, h0, e3]
  split
  · rfl
  · rw [List.map_map]; rfl

/-- C131.  Reversing the motion twice changes nothing. -/
theorem C131_twice (hwt : ∀ q q', q.rest = q'.rest → cfg.A.weight q = cfg.A.weight q') {i i' : Ideal K V (Part K g ρ) σ}
    (h : ReversedIn eps D sh.vol marker lo hi v0 vN qom place cfg i i') : ReversedIn eps D sh.vol marker lo hi v0 vN qom place cfg i' i := by
  obtain ⟨E, hE, hp⟩ := h
  refine ⟨E, by rwa [reversed_points hwt _ hp], ?_⟩
  refine (List.Forall₂.flip hp).imp ?_
  rintro s' s ⟨e1, e2, e3⟩
  refine ⟨e1.symm, e2.symm, ?_⟩
  rw [e2, e3, e1]
  split
  · rfl
  · rw [List.map_map]
    symm
    conv_rhs => rw [← List.map_id (s.st.items.map kin)]
    refine List.map_congr_left fun k _ => ?_
    simp only [Function.comp, flippedIn, id, neg_add_rev, neg_neg]
    ext1
    · rfl
    · ext1
      · dsimp only
        abel
      · rfl

/-- A kick and a drift, the reversal of the motion, and another kick and drift lead back. -/
theorem leapIn_back {dt q : K} {e e' : Vec K g} (k : Vec K g × Vec K g × ρ) :
    leap dt q (some e') (flippedIn dt q e' (leap dt q (some e) k)) = flippedIn dt q e k := by
  unfold leap flippedIn
  dsimp only [Option.getD]
  have h : -(k.2.1 + (q * dt) • e + (q * dt) • e') + (q * dt) • e' = -(k.2.1 + (q * dt) • e) := by abel
  rw [h, smul_neg]
  ext1
  · dsimp only
    abel
  · rfl

/-- What the steps of Python and compiled simulations have in common. -/
def Spec.MovedIn (eps : K) (D : DMesh K g) (vol : DSimplex K → K) (marker : Int → Int) (lo hi : Int) (v0 vN : K)
    (dom : Vec K g → Bool) (qom : String → K) (cfg : Cfg K V (Part K g ρ) σ φ) (made : String → List (Part K g ρ)) (i j : Ideal K V (Part K g ρ) σ) : Prop :=
  ∃ simplex : Part K g ρ → DSimplex K,
    (∀ pop ∈ i.pops, ∀ q ∈ pop.st.items, simplex q ∈ D.cells ∧ InHull (corner D (simplex q)) q.x) ∧
  ∃ E : DSimplex K → Vec K g,
    IsFieldOf eps D vol marker lo hi v0 vN (pointsIn cfg.A.weight (cfg.factor.getD 1) simplex i.pops) E ∧
    List.Forall₂ (fun s s' => s'.name = s.name ∧ s'.charge = s.charge ∧ s'.mass = s.mass ∧
      s'.index = s.index ∧
      s'.st.items.map kin =
        (if s.charge = 0 then s.st.items.map kin
         else (s.st.items.map (fun q => leap cfg.dt (qom s.name) (some (E (simplex q))) (kin q))).filter (fun k => dom k.1)) ++
        (made s.name).map kin) i.pops j.pops

/-- The simplices are those of `place`. -/
theorem movedIn_place {made : String → List (Part K g ρ)} {i j : Ideal K V (Part K g ρ) σ} (hp : PlacedIn D place i)
    (h : MovedIn eps D sh.vol marker lo hi v0 vN dom qom cfg made i j) :
    ∃ E : DSimplex K → Vec K g, IsFieldOf eps D sh.vol marker lo hi v0 vN (pointsIn cfg.A.weight (cfg.factor.getD 1) (fun q => place q.x) i.pops) E ∧
    List.Forall₂ (fun s s' => s'.name = s.name ∧ s'.charge = s.charge ∧
      s'.st.items.map kin =
        (if s.charge = 0 then s.st.items.map kin
         else ((s.st.items.map kin).map (fun k => leap cfg.dt (qom s.name) (some (E (place k.1))) k)).filter (fun k => dom k.1)) ++
        (made s.name).map kin) i.pops j.pops := by
  obtain ⟨sx, h1, E, h2, h3⟩ := h
  have hsx : ∀ pop ∈ i.pops, ∀ q ∈ pop.st.items, sx q = place q.x := fun pop hpop q hq => (hp pop hpop q hq).2.2 _ (h1 pop hpop q hq).1 (h1 pop hpop q hq).2
  refine ⟨E, ?_, ?_⟩
  · have : pointsIn cfg.A.weight (cfg.factor.getD 1) (fun q => place q.x) i.pops = pointsIn cfg.A.weight (cfg.factor.getD 1) sx i.pops := by
      unfold pointsIn
      rw [List.flatMap_def, List.flatMap_def]
      congr 1
      refine List.map_congr_left fun p hp => List.map_congr_left fun q hq => ?_
      rw [hsx p hp q hq]
    rwa [this]
  · clear h1 h2 hp
    generalize i.pops = l at h3 hsx
    generalize j.pops = l' at h3
    induction h3 with
    | nil => exact .nil
    | @cons s s' _ _ h0 _ ih =>
      refine .cons ⟨h0.1, h0.2.1, ?_⟩ (ih fun p hp => hsx p (by simp [hp]))
      rw [h0.2.2.2.2]
      congr 2
      congr 1
      rw [List.map_map]
      refine List.map_congr_left fun q hq => ?_
      show _ = leap cfg.dt (qom s.name) (some (E (place q.x))) (kin q)
      rw [hsx s (by simp) q hq]

theorem placed_hull {weight : Part K g ρ → K} {factor : K} {i : Ideal K V (Part K g ρ) σ} (hp : PlacedIn D place i) :
    ∀ q ∈ pointsIn weight factor (fun q => place q.x) i.pops, InHull (corner D q.2.2) q.2.1 := by
  intro a ha
  unfold pointsIn at ha
  obtain ⟨p, hp1, ha⟩ := List.mem_flatMap.1 ha
  obtain ⟨q, hq, rfl⟩ := List.mem_map.1 ha
  exact (hp p hp1 q hq).2.1

/-- One step back. -/
theorem movedIn_back (he : 0 < eps) (hv : ∀ c ∈ D.cells, 0 < sh.vol c) (hdom : ∀ c ∈ D.cells, ∀ x, InHull (corner D c) x → dom x = true)
    (hdt : cfg'.dt = cfg.dt) (hw : cfg'.A.weight = cfg.A.weight) (hfac : cfg'.factor = cfg.factor)
    (hwt : ∀ q q', q.rest = q'.rest → cfg.A.weight q = cfg.A.weight q') {made made' : String → List (Part K g ρ)} {i j k k' : Ideal K V (Part K g ρ) σ}
    (h : MovedIn eps D sh.vol marker lo hi v0 vN dom qom cfg made i j) (hn : NothingLost made i j) (hpi : PlacedIn D place i) (hpj : PlacedIn D place j)
    (hr : ReversedIn eps D sh.vol marker lo hi v0 vN qom place cfg j k)
    (h' : MovedIn eps D sh.vol marker lo hi v0 vN dom qom cfg' made' k k') (hm : ∀ s ∈ k.pops, made' s.name = []) :
    ReversedIn eps D sh.vol marker lo hi v0 vN qom place cfg i k' := by
  obtain ⟨Ei, hEi, hij⟩ := movedIn_place hpi h
  obtain ⟨Ej, hEj, hjk⟩ := hr
  -- positions of `k` are those of `j`
  have hxs : List.Forall₂ (fun s s' : Pop K V (Part K g ρ) => s'.st.items.map (fun q => q.x) = s.st.items.map (fun q => q.x)) j.pops k.pops := by
    refine hjk.imp ?_
    rintro s s' ⟨-, -, e3⟩
    have h0 : ∀ l : List (Part K g ρ), l.map (fun q => q.x) = (l.map kin).map (fun k => k.1) := fun l => by
      rw [List.map_map]; rfl
    rw [h0, h0, e3]
    split
    · rfl
    · rw [List.map_map]; rfl
  have hpk : PlacedIn D place k := by
    intro p hp q hq
    obtain ⟨p0, hp0, e⟩ : ∃ p0 ∈ j.pops, p.st.items.map (fun q => q.x) = p0.st.items.map (fun q => q.x) := by
      clear * - hxs hp
      generalize j.pops = l at hxs
      generalize k.pops = l' at hxs hp
      induction hxs with
      | nil => cases hp
      | cons h0 _ ih =>
        rcases List.mem_cons.1 hp with rfl | hp
        · exact ⟨_, List.mem_cons_self, h0⟩
        · obtain ⟨a, k1, k2⟩ := ih hp
          exact ⟨a, List.mem_cons_of_mem _ k1, k2⟩
    have hx : q.x ∈ p0.st.items.map (fun q => q.x) := by rw [← e]; exact List.mem_map_of_mem hq
    obtain ⟨q0, hq0, ex⟩ := List.mem_map.1 hx
    rw [← ex]
    exact hpj p0 hp0 q0 hq0
  obtain ⟨Ek, hEk, hkk⟩ := movedIn_place hpk h'
  rw [hw, hfac, reversed_points hwt _ hjk] at hEk
  have hE : ∀ c ∈ D.cells, Ek c = Ej c := C97_field_unique he hv (placed_hull hpj) hEk hEj
  refine ⟨Ei, hEi, ?_⟩
  unfold NothingLost at hn
  unfold PlacedIn at hpi hpj
  rw [hdt] at hkk
  clear hEi hEj hEk h h' hxs hpk
  generalize i.pops = li at *
  generalize j.pops = lj at *
  generalize k.pops = lk at *
  generalize k'.pops = lk' at *
  induction hij generalizing lk lk' with
  | nil =>
    cases hjk
    cases hkk
    exact .nil
  | @cons s s1 li lj h0 _ ih =>
    cases hjk with
    | @cons _ s2 _ _ h1 t1 =>
    cases hkk with
    | @cons _ s3 _ _ h2 t2 =>
    cases hn with
    | cons hn0 hn1 =>
    refine .cons ?_ (ih (fun p hp => hpi p (by simp [hp])) (fun p hp => hpj p (by simp [hp])) hn1 _ (fun p hp => hm p (by simp [hp])) t1 _ t2)
    clear ih t1 t2 hn1
    obtain ⟨a1, a2, a3⟩ := h0
    obtain ⟨b1, b2, b3⟩ := h1
    obtain ⟨c1, c2, c3⟩ := h2
    refine ⟨by rw [c1, b1, a1], by rw [c2, b2, a2], ?_⟩
    rw [c3, hm s2 (by simp), List.map_nil, List.append_nil, b2, b1, a2, a1]
    rw [hn0.1, List.map_nil, List.append_nil] at a3
    rw [b3, a2]
    split
    · rename_i h0
      rw [if_pos h0] at a3
      rw [a3]
    · rename_i h0
      rw [if_neg h0] at a3
      have hlen : (((s.st.items.map kin).map (fun k => leap cfg.dt (qom s.name) (some (Ei (place k.1))) k)).filter (fun k => dom k.1)).length =
          ((s.st.items.map kin).map (fun k => leap cfg.dt (qom s.name) (some (Ei (place k.1))) k)).length := by
        rw [← a3, List.length_map, hn0.2, List.length_map, List.length_map]
      rw [List.filter_eq_self.2 (List.length_filter_eq_length_iff.1 hlen)] at a3
      have hcell : ∀ k ∈ s1.st.items.map kin, Ek (place k.1) = Ej (place k.1) := by
        intro k hk
        obtain ⟨q, hq, rfl⟩ := List.mem_map.1 hk
        exact hE _ (hpj s1 (by simp) q hq).1
      rw [a1]
      have key : (((s1.st.items.map kin).map (fun k => flippedIn cfg.dt (qom s.name) (Ej (place k.1)) k)).map
          (fun k => leap cfg.dt (qom s.name) (some (Ek (place k.1))) k)) =
          (s.st.items.map kin).map (fun k => flippedIn cfg.dt (qom s.name) (Ei (place k.1)) k) := by
        rw [List.map_map]
        have : ∀ k ∈ s1.st.items.map kin, ((fun k => leap cfg.dt (qom s.name) (some (Ek (place k.1))) k) ∘
            (fun k => flippedIn cfg.dt (qom s.name) (Ej (place k.1)) k)) k = leap cfg.dt (qom s.name) (some (Ej (place k.1)))
              (flippedIn cfg.dt (qom s.name) (Ej (place k.1)) k) := by
          intro k hk
          show leap cfg.dt (qom s.name) (some (Ek (place k.1))) _ = _
          rw [hcell k hk]
        rw [List.map_congr_left this, a3, List.map_map]
        exact List.map_congr_left fun k _ => leapIn_back k
      rw [key]
      refine List.filter_eq_self.2 fun k hk => ?_
      obtain ⟨k0, hk0, rfl⟩ := List.mem_map.1 hk
      obtain ⟨q, hq, rfl⟩ := List.mem_map.1 hk0
      exact hdom _ (hpi s (by simp) q hq).1 _ (hpi s (by simp) q hq).2.1

/-- Many steps back. -/
theorem moved_chain_back (he : 0 < eps) (hv : ∀ c ∈ D.cells, 0 < sh.vol c) (hdom : ∀ c ∈ D.cells, ∀ x, InHull (corner D c) x → dom x = true)
    (hdt : cfg'.dt = cfg.dt) (hw : cfg'.A.weight = cfg.A.weight) (hfac : cfg'.factor = cfg.factor)
    (hwt : ∀ q q', q.rest = q'.rest → cfg.A.weight q = cfg.A.weight q') {made made' : Ideal K V (Part K g ρ) σ → String → List (Part K g ρ)}
    (hm : ∀ i sn, made' i sn = []) :
    ∀ (js : List (Ideal K V (Part K g ρ) σ)) (j k : Ideal K V (Part K g ρ) σ) (ks : List (Ideal K V (Part K g ρ) σ)),
    (j :: js).IsChain (fun j i => MovedIn eps D sh.vol marker lo hi v0 vN dom qom cfg (made i) i j ∧ NothingLost (made i) i j) →
    (∀ i ∈ j :: js, PlacedIn D place i) →
    (k :: ks).IsChain (fun k k' => MovedIn eps D sh.vol marker lo hi v0 vN dom qom cfg' (made' k) k k') →
    js.length = ks.length → ReversedIn eps D sh.vol marker lo hi v0 vN qom place cfg j k →
    List.Forall₂ (ReversedIn eps D sh.vol marker lo hi v0 vN qom place cfg) (j :: js) (k :: ks) := by
  intro js
  induction js with
  | nil =>
    intro j k ks _ _ _ hl hr
    rw [List.length_eq_zero_iff.1 hl.symm]
    exact .cons hr .nil
  | cons i js ih =>
    intro j k ks hc hp hc' hl hr
    cases ks with
    | nil => simp at hl
    | cons k' ks =>
      rw [List.isChain_cons_cons] at hc hc'
      refine .cons hr (ih i k' ks hc.2 (fun i' hi' => hp i' (by simp [List.mem_cons.1 hi'])) hc'.2 (by simpa using hl) ?_)
      exact movedIn_back he hv hdom hdt hw hfac hwt hc.1.1 hc.1.2 (hp i (by simp)) (hp j (by simp)) hr hc'.1 (fun s _ => hm k s.name)

theorem moved_run_back (he : 0 < eps) (hv : ∀ c ∈ D.cells, 0 < sh.vol c) (hdom : ∀ c ∈ D.cells, ∀ x, InHull (corner D c) x → dom x = true)
    (hdt : cfg'.dt = cfg.dt) (hw : cfg'.A.weight = cfg.A.weight) (hfac : cfg'.factor = cfg.factor)
    (hwt : ∀ q q', q.rest = q'.rest → cfg.A.weight q = cfg.A.weight q') {made made' : Ideal K V (Part K g ρ) σ → String → List (Part K g ρ)}
    (hm : ∀ i sn, made' i sn = []) {i0 k0 : Ideal K V (Part K g ρ) σ} {is ks : List (Ideal K V (Part K g ρ) σ)}
    (hf : (i0 :: is).IsChain (fun i j => MovedIn eps D sh.vol marker lo hi v0 vN dom qom cfg (made i) i j))
    (hll : (i0 :: is).IsChain (fun i j => NothingLost (made i) i j)) (hpl : ∀ i ∈ i0 :: is, PlacedIn D place i)
    (hf' : (k0 :: ks).IsChain (fun k k' => MovedIn eps D sh.vol marker lo hi v0 vN dom qom cfg' (made' k) k k'))
    (hlen : is.length = ks.length)
    (hrev : ReversedIn eps D sh.vol marker lo hi v0 vN qom place cfg ((i0 :: is).getLast (by simp)) k0) :
    List.Forall₂ (ReversedIn eps D sh.vol marker lo hi v0 vN qom place cfg) (i0 :: is).reverse (k0 :: ks) := by
  have hne : i0 :: is ≠ [] := by simp
  have hchain : (i0 :: is).reverse.IsChain (fun j i => MovedIn eps D sh.vol marker lo hi v0 vN dom qom cfg (made i) i j ∧ NothingLost (made i) i j) :=
    List.isChain_reverse.2 (chain_and hf hll)
  have hhead : (i0 :: is).reverse = (i0 :: is).getLast hne :: (i0 :: is).reverse.tail := by
    rw [← List.head_reverse (by simp)]
    exact (List.cons_head_tail _).symm
  rw [hhead] at hchain ⊢
  refine moved_chain_back he hv hdom hdt hw hfac hwt hm _ _ _ _ hchain (fun j hj => hpl j ?_) hf' ?_ hrev
  · rw [← hhead] at hj
    exact List.mem_reverse.1 hj
  · simp only [List.length_tail, List.length_reverse, List.length_cons]
    omega

end

section
variable {τ : Type} {hg : g ≤ 3} {D : DMesh K g} {sh : Shape K g} {N : Nat} {pmarker marker : Int → Int} {lo hi : Int} {v0 vN eps : K}
open TimeLoop

/-- C131.  If a simulation on a triangulation of a convex domain in which no particles are made or lost and none comes to rest between two
simplices ends in a state `e`, another one, without sources, that begins with the state `e` with the motion of the particles reversed goes
through the same states in the opposite order, with the motion reversed. -/
theorem C131_run (hD : Triangulation hg D) {dom : Vec K g → Bool} (hdom : ConvexDomain hg D dom) (junk : Int)
    (hpm : ∀ c ∈ D.cells, ∀ F ∈ c.facets, (∀ c' ∈ D.cells, F ∈ c'.facets → c'.index = c.index) → pmarker F ≠ 0)
    (he : 0 < eps) (hm : Meshed D sh N) (hl : ∀ i ≤ N, Linked D (fun i => OnSide D marker lo i ∨ OnSide D marker hi i) i)
    {dd : List (String × Int × Val K)}
    (h1 : dd.lookup "rmin" = some (lo, .num v0)) (h2 : dd.lookup "rmax" = some (hi, .num vN)) :
    ∃ M s, buildMesh hg D junk pmarker = .ok M ∧ createOn eps D sh N marker dd = .ok s ∧
      ∀ {bc bc' : String → Int → τ → BCall K g g ρ → Except Err (τ × Part K g ρ)}, (∀ sn, PlainBC M (bc sn)) → (∀ sn, PlainBC M (bc' sn)) →
      ∀ {maxCross maxCross' : Nat} {qom : String → K} {cfg cfg' : Cfg K V (Part K g ρ) (τ × Vec K g) (List (Vec K g))},
        cfg.move = pyMove (le_refl g) M bc maxCross cfg.dt qom (fun _ f q => (f[q.cell.toNat]?).map (fun e => -e)) →
        cfg'.move = pyMove (le_refl g) M bc' maxCross' cfg'.dt qom (fun _ f q => (f[q.cell.toNat]?).map (fun e => -e)) →
        cfg'.dt = cfg.dt → cfg'.A.weight = cfg.A.weight → cfg'.factor = cfg.factor → cfg'.sources = [] →
        (∀ q q', q.rest = q'.rest → cfg.A.weight q = cfg.A.weight q') →
        (∀ s ∈ cfg.sources, ∀ count time side side' xs, s.make count time side = .ok (side', xs) → ∀ q ∈ xs, InSimplex D q) →
        ∀ {d d' : Nat → Nat} {C C' sl sl' : Nat}, PlasmaOn cfg D sh N marker s d C → PlasmaOn cfg' D sh N marker s d' C' → GoodCfg cfg → GoodCfg cfg' →
        ∀ {z z' : Species.HRow K} (n : Nat) {init init' : Option (List (String × List (Part K g ρ)))},
        (∀ gs, init = some gs → ∀ a ∈ gs, ∀ q ∈ a.2, InSimplex D q) → (∀ gs, init' = some gs → ∀ a ∈ gs, ∀ q ∈ a.2, InSimplex D q) →
        ∀ {st st' : State K V (Part K g ρ) (τ × Vec K g) (List (Vec K g))} {i i' : Ideal K V (Part K g ρ) (τ × Vec K g)} {b b' : List K},
        Fresh sl (N + 1) C n z st i b → Fresh sl' (N + 1) C' n z' st' i' b' → (i.pops.map (·.name)).Nodup → (i'.pops.map (·.name)).Nodup →
        (st.writer = none → cfg.partEvery = none) → (st'.writer = none → cfg'.partEvery = none) →
        ∀ {i0 k0 : Ideal K V (Part K g ρ) (τ × Vec K g)} {is ks : List (Ideal K V (Part K g ρ) (τ × Vec K g))},
          Ideal.run cfg sl (N + 1) (onCells D) init b n i = .ok (i0, is) → Ideal.run cfg' sl' (N + 1) (onCells D) init' b' n i' = .ok (k0, ks) →
          ∀ {place : Vec K g → DSimplex K}, (∀ j ∈ i0 :: is, PlacedIn D place j) →
          (i0 :: is).IsChain (fun i j => NothingLost (i.made cfg sl) i j) →
          ReversedIn eps D sh.vol marker lo hi v0 vN qom place cfg ((i0 :: is).getLast (by simp)) k0 →
          List.Forall₂ (ReversedIn eps D sh.vol marker lo hi v0 vN qom place cfg) (i0 :: is).reverse (k0 :: ks) := by
  obtain ⟨M, s, e, hs, key⟩ := C97_plasma (τ := τ) (ρ := ρ) (V := V) hD hdom junk hpm he hm hl h1 h2
  refine ⟨M, s, e, hs, ?_⟩
  intro bc bc' hbc hbc' mc mc' qom cfg cfg' hmv hmv' hdt hw hfac hns hwt hsrc d d' C C' sl sl' hP hP' hc hc' z z' n init init' hin hin' st st' i i' b b'
    hf hf' hn hn' hwr hwr' i0 k0 is ks hr hr' place hpl hll hrev
  have a := (key hbc hmv hsrc hP hc n hin hf hn hwr hr).1
  have a' := (key hbc' hmv' (by rw [hns]; simp) hP' hc' n hin' hf' hn' hwr' hr').1
  have l := C68_run hc (hP.goodMesh hm) n init hf hwr
  have l' := C68_run hc' (hP'.goodMesh hm) n init' hf' hwr'
  rw [hr] at l
  rw [hr'] at l'
  refine moved_run_back he hm.vol hdom.cells hdt hw hfac hwt (made := fun i => i.made cfg sl) (made' := fun i => i.made cfg' sl') (fun i sn => ?_)
    (a.imp fun _ _ h => h.2.2) hll hpl (a'.imp fun _ _ h => h.2.2) (l.1.trans l'.1.symm) hrev
  unfold Ideal.made
  rw [hns]
  split <;> rfl

/-- C131.  The same for simulations with the compiled movers and containers. -/
theorem C131_compiled (hD : Triangulation hg D) {nVerts : Nat} (hnum : Numbered D nVerts) {dom : Vec K g → Bool} (hdom : ConvexDomain hg D dom) (junk : Int)
    (hpm : ∀ c ∈ D.cells, ∀ F ∈ c.facets, (∀ c' ∈ D.cells, F ∈ c'.facets → c'.index = c.index) → pmarker F ≠ 0)
    (he : 0 < eps) (hm : Meshed D sh N) (hl : ∀ i ≤ N, Linked D (fun i => OnSide D marker lo i ∨ OnSide D marker hi i) i)
    {dd : List (String × Int × Val K)}
    (h1 : dd.lookup "rmin" = some (lo, .num v0)) (h2 : dd.lookup "rmax" = some (hi, .num vN)) :
    ∃ M cm s, buildMesh hg D junk pmarker = .ok M ∧ buildCpp D nVerts pmarker = .ok cm ∧ createOn eps D sh N marker dd = .ok s ∧
      ∀ {L : Layout K g}, L.Right →
      ∀ {bc bc' : String → Int → τ → BCall K g g ρ → Except Err (τ × Part K g ρ)}, (∀ sn, PlainBC M (bc sn)) → (∀ sn, PlainBC M (bc' sn)) →
      ∀ {maxCross maxCross' : Nat} {qom : String → K} {cfg cfg' : Cfg K V (Part K g ρ) ((τ × Vec K g) × Scratch K) (List (Vec K g))},
        cfg.move = CppLoop.cppMove (le_refl g) L cm bc maxCross cfg.dt qom (fun _ f q => (f[q.cell.toNat]?).map (fun e => -e)) →
        cfg'.move = CppLoop.cppMove (le_refl g) L cm bc' maxCross' cfg'.dt qom (fun _ f q => (f[q.cell.toNat]?).map (fun e => -e)) →
        cfg'.dt = cfg.dt → cfg'.A.weight = cfg.A.weight → cfg'.factor = cfg.factor → cfg'.sources = [] →
        (∀ q q', q.rest = q'.rest → cfg.A.weight q = cfg.A.weight q') →
        (∀ s ∈ cfg.sources, ∀ count time side side' xs, s.make count time side = .ok (side', xs) → ∀ q ∈ xs, InSimplex D q) →
        ∀ {d d' : Nat → Nat} {C C' sl sl' : Nat}, PlasmaOn cfg D sh N marker s d C → PlasmaOn cfg' D sh N marker s d' C' → 2 ≤ sl → 2 ≤ sl' →
        CppLoop.GoodEvery cfg → CppLoop.GoodEvery cfg' →
        ∀ {skip skip' : Int}, skip ≠ 0 → skip' ≠ 0 → ∀ (n : Nat) {init init' : Option (List (String × List (Part K g ρ)))},
        (∀ gs, init = some gs → ∀ a ∈ gs, ∀ q ∈ a.2, InSimplex D q) → (∀ gs, init' = some gs → ∀ a ∈ gs, ∀ q ∈ a.2, InSimplex D q) →
        ∀ {st st' : CppLoop.State K V (Part K g ρ) ((τ × Vec K g) × Scratch K) (List (Vec K g))}
          {i i' : Ideal K V (Part K g ρ) ((τ × Vec K g) × Scratch K)} {b b' : List K},
        CppLoop.Fresh sl (N + 1) C skip st i b → CppLoop.Fresh sl' (N + 1) C' skip' st' i' b' → (i.pops.map (·.name)).Nodup → (i'.pops.map (·.name)).Nodup →
        (st.file = none → cfg.partEvery = none) → (st'.file = none → cfg'.partEvery = none) →
        ∀ {i0 k0 : Ideal K V (Part K g ρ) ((τ × Vec K g) × Scratch K)} {is ks : List (Ideal K V (Part K g ρ) ((τ × Vec K g) × Scratch K))},
          Comp.run cfg sl (N + 1) (onCells D) init b n i = .ok (i0, is) → Comp.run cfg' sl' (N + 1) (onCells D) init' b' n i' = .ok (k0, ks) →
          ∀ {place : Vec K g → DSimplex K}, (∀ j ∈ i0 :: is, PlacedIn D place j) →
          (i0 :: is).IsChain (fun i j => NothingLost (fun sn => Comp.made cfg sl sn i) i j) →
          ReversedIn eps D sh.vol marker lo hi v0 vN qom place cfg ((i0 :: is).getLast (by simp)) k0 →
          List.Forall₂ (ReversedIn eps D sh.vol marker lo hi v0 vN qom place cfg) (i0 :: is).reverse (k0 :: ks) := by
  obtain ⟨M, cm, s, e, ecm, hs, key⟩ := C120_plasma (τ := τ) (ρ := ρ) (V := V) hD hnum hdom junk hpm he hm hl h1 h2
  refine ⟨M, cm, s, e, ecm, hs, ?_⟩
  intro L hL bc bc' hbc hbc' mc mc' qom cfg cfg' hmv hmv' hdt hw hfac hns hwt hsrc d d' C C' sl sl' hP hP' h2 h2' hc hc' skip skip' hsk hsk' n init init' hin hin'
    st st' i i' b b' hf hf' hn hn' hwr hwr' i0 k0 is ks hr hr' place hpl hll hrev
  have a := ((key hL hbc hmv hsrc hP h2 hc hsk n hin hf hn hwr).1 hr).1
  have a' := ((key hL hbc' hmv' (by rw [hns]; simp) hP' h2' hc' hsk' n hin' hf' hn' hwr').1 hr').1
  have l := C109_run h2 hc (hP.goodMesh hm) hsk n init hf hwr
  have l' := C109_run h2' hc' (hP'.goodMesh hm) hsk' n init' hf' hwr'
  rw [hr] at l
  rw [hr'] at l'
  refine moved_run_back he hm.vol hdom.cells hdt hw hfac hwt (made := fun i sn => Comp.made cfg sl sn i) (made' := fun i sn => Comp.made cfg' sl' sn i)
    (fun i sn => ?_) (a.imp fun _ _ h => h.2.2) hll hpl (a'.imp fun _ _ h => h.2.2) (l.1.trans l'.1.symm) hrev
  unfold Comp.made
  rw [hns]
  split <;> rfl

end

/-! ### Two electrons in the kite, there and back -/

section Demo
open TimeLoop

/-- Two electrons, one in each triangle; the first goes to the other triangle. -/
def pairInit : List (String × List KitePart) := [("e", [kitePart 1 (-1 / 2) 0 1 1, kitePart 1 (1 / 2) 0 (-1 / 4) 0])]

/-- The same electrons after a step, with the motion reversed. -/
def pairBack : List (String × List KitePart) := [("e", [kitePart (7 / 8) (1 / 32) (1 / 2) (-21 / 16) 0, kitePart (7 / 8) (1 / 2) (1 / 2) (-1 / 4) 0])]

def pairRun (gs : List (String × List KitePart)) :=
  Ideal.run kiteCfg 2 4 onKite (some gs) [0, 0, 0, 0] 1 kiteIdeal

def kitePlace (x : Vec ℚ 2) : DSimplex ℚ := if x 1 < 0 then (kiteCells false)[1] else (kiteCells false)[0]

/-- The field after the step. -/
def pairField (c : DSimplex ℚ) : Vec ℚ 2 := if c.index = 0 then ![1 / 2, -1 / 2] else ![1 / 2, 0]

theorem kite_placed {x : Vec ℚ 2} (h : kiteDom x = true) (h1 : x 1 ≠ 0) :
    kitePlace x ∈ (kite false).cells ∧ InHull (corner (kite false) (kitePlace x)) x ∧
      ∀ c ∈ (kite false).cells, InHull (corner (kite false) c) x → c = kitePlace x := by
  rw [kiteDom, decide_eq_true_eq] at h
  obtain ⟨x1, x2, x3, x4⟩ := h
  have hy : ∀ c ∈ (kite false).cells, InHull (corner (kite false) c) x → (c = (kiteCells false)[0] ∧ 0 ≤ x 1) ∨ (c = (kiteCells false)[1] ∧ x 1 ≤ 0) := by
    rintro c hc ⟨w, hw, hs, hx⟩
    have e1 := hx 1
    rw [Fin.sum_univ_three] at e1
    have w1 := hw 1
    have w2 := hw 2
    simp only [kite, kiteCells, List.mem_cons, List.not_mem_nil, or_false] at hc
    rcases hc with rfl | rfl
    · refine .inl ⟨rfl, ?_⟩
      simp [corner, kite] at e1
      linarith
    · refine .inr ⟨rfl, ?_⟩
      simp [corner, kite] at e1
      linarith
  unfold kitePlace
  split_ifs with hlt
  · refine ⟨by simp [kite, kiteCells], ⟨![(x 0 + x 1) / 2, 1 + x 1 - (x 0 + x 1) / 2, -x 1], ?_, ?_, ?_⟩, ?_⟩
    · intro i
      fin_cases i <;> simp <;> linarith
    · rw [Fin.sum_univ_three]
      simp
    · intro e
      rw [Fin.sum_univ_three]
      fin_cases e <;> simp [corner, kite, kiteCells]
    · intro c hc hx
      rcases hy c hc hx with ⟨-, h⟩ | ⟨h, -⟩
      · linarith
      · exact h
  · refine ⟨by simp [kite, kiteCells], ⟨![(x 0 - x 1) / 2, x 1, 1 - x 1 - (x 0 - x 1) / 2], ?_, ?_, ?_⟩, ?_⟩
    · intro i
      fin_cases i <;> simp <;> linarith
    · rw [Fin.sum_univ_three]
      simp
      ring
    · intro e
      rw [Fin.sum_univ_three]
      fin_cases e <;> simp [corner, kite, kiteCells]
    · intro c hc hx
      rcases hy c hc hx with ⟨h, -⟩ | ⟨-, h⟩
      · exact h
      · exact absurd (le_antisymm h (not_lt.1 hlt)) h1

theorem pair_field : IsFieldOf 1 (kite false) (kiteShape false).vol kiteMarks 1 2 0 1
    [(-(1 / 4), ![7 / 8, 1 / 32], (kiteCells false)[0]), (-(1 / 4), ![7 / 8, 1 / 2], (kiteCells false)[0])] pairField := by
  have t0 : OnSide (kite false) kiteMarks 1 0 := (touches_iff _ _ _ _).1 (by decide)
  have t1 : OnSide (kite false) kiteMarks 2 1 := (touches_iff _ _ _ _).1 (by decide)
  have t2 : OnSide (kite false) kiteMarks 2 2 := (touches_iff _ _ _ _).1 (by decide)
  have le3 : ∀ {tag i}, OnSide (kite false) kiteMarks tag i → i ≤ 3 := by
    rintro tag i ⟨c, hc, k, F, -, -, -, j, -, hj⟩
    have := List.mem_of_getElem? hj
    simp only [kite, kiteCells, List.mem_cons, List.not_mem_nil, or_false] at hc
    rcases hc with rfl | rfl <;> simp at this <;> omega
  constructor
  · refine ⟨fun i => if i = 0 then 0 else if i = 3 then 1 / 2 else 1, ⟨fun i hi hn => ?_, fun i hi => ?_⟩, ?_⟩
    · have := le3 hi
      rw [← touches_iff] at hi hn
      interval_cases i
      · simp
      · exact absurd (by decide) hn
      · exact absurd (by decide) hn
      · revert hi; decide
    · have := le3 hi
      rw [← touches_iff] at hi
      interval_cases i
      · revert hi; decide
      · simp
      · simp
      · revert hi; decide
    · intro c hc j
      simp only [kite, kiteCells, List.mem_cons, List.not_mem_nil, or_false] at hc
      rcases hc with rfl | rfl <;> fin_cases j <;> simp [dot, Fin.sum_univ_two, corner, kite, pairField] <;> norm_num
  · intro v G val hv hG hval
    have v0 := hv 0 (.inl t0)
    have v1 := hv 1 (.inr t1)
    have v2 := hv 2 (.inr t2)
    have g1 := hG (kiteCells false)[0] (by simp [kite, kiteCells]) 1
    have g2 := hG (kiteCells false)[0] (by simp [kite, kiteCells]) 2
    have g3 := hG (kiteCells false)[1] (by simp [kite, kiteCells]) 1
    simp [dot, Fin.sum_univ_two, corner, kite, kiteCells, v0, v1, v2] at g1 g2 g3
    obtain ⟨w, -, -, a⟩ := hval _ (by simp; exact .inl rfl)
    obtain ⟨w', -, -, a'⟩ := hval _ (by simp; exact .inr rfl)
    simp [Fin.sum_univ_three, kiteCells, v0, v1, v2] at a a'
    simp [pairing, kite, kiteCells, kiteShape, dot, Fin.sum_univ_two, pairField, a, a']
    linarith

theorem onCells_kite : (onCells (kite false) : KitePart → Bool) = onKite := by
  funext q
  simp only [onCells, onKite, kite, kiteCells, List.any_cons, List.any_nil, Bool.or_false]
  rw [Bool.eq_iff_iff]
  simp only [Bool.or_eq_true, decide_eq_true_eq]
  omega

theorem pair_in {gs : List (String × List KitePart)} (h : gs = pairInit ∨ gs = pairBack) :
    ∀ gs', some gs = some gs' → ∀ a ∈ gs', ∀ q ∈ a.2, InSimplex (kite false) q := by
  intro gs' hgs a ha q hq
  cases hgs
  have key : ∀ q : KitePart, kiteDom q.x = true → q.x 1 ≠ 0 → q.cell = (kitePlace q.x).index → q.del = false → InSimplex (kite false) q :=
    fun q h h1 h2 h3 => ⟨⟨kitePlace q.x, (kite_placed h h1).1, h2.symm, (kite_placed h h1).2.1⟩, h3⟩
  have all : ∀ gs ∈ [pairInit, pairBack], ∀ a ∈ gs, ∀ q ∈ a.2, kiteDom q.x = true ∧ q.x 1 ≠ 0 ∧ q.cell = (kitePlace q.x).index ∧ q.del = false := by
    decide +kernel
  obtain ⟨h1, h2, h3, h4⟩ := all gs (by simpa using h) a ha q hq
  exact key q h1 h2 h3 h4

section
variable {σ : Type}

/-- What is to be checked of the runs of the two simulations, in terms that can be computed. -/
def pairCheck (made : Ideal ℚ ℚ KitePart σ → String → List KitePart) (is ks : List (Ideal ℚ ℚ KitePart σ)) : Bool :=
  decide (∀ i ∈ is, ∀ pop ∈ i.pops, ∀ q ∈ pop.st.items, kiteDom q.x = true ∧ q.x 1 ≠ 0) &&
  decide (is.IsChain (fun i j => List.Forall₂ (fun s s' => made i s.name = [] ∧ s'.st.items.length = s.st.items.length) i.pops j.pops)) &&
  (match is.getLast?, ks.head? with
   | some j, some k => decide ((pointsIn (fun _ => 1 / 4) 1 (fun q => kitePlace q.x) j.pops).map (fun p => (p.1, p.2.1, p.2.2.index)) =
        [(-(1 / 4), ![7 / 8, 1 / 32], 0), (-(1 / 4), ![7 / 8, 1 / 2], 0)]) &&
      decide (List.Forall₂ (fun s s' : Pop ℚ ℚ KitePart => s'.name = s.name ∧ s'.charge = s.charge ∧
        s'.st.items.map kin = if s.charge = 0 then s.st.items.map kin
        else (s.st.items.map kin).map (fun k => flippedIn (1 / 2) (-1) (pairField (kitePlace k.1)) k)) j.pops k.pops)
   | _, _ => false)

theorem pair_checked {φ : Type} {cfg : Cfg ℚ ℚ KitePart σ φ} (hdt : cfg.dt = 1 / 2) (hw : cfg.A.weight = fun _ => 1 / 4) (hfac : cfg.factor = none)
    {made : Ideal ℚ ℚ KitePart σ → String → List KitePart} {i0 k0 : Ideal ℚ ℚ KitePart σ} {is ks : List (Ideal ℚ ℚ KitePart σ)}
    (h : pairCheck made (i0 :: is) (k0 :: ks) = true) :
    (∀ j ∈ i0 :: is, PlacedIn (kite false) kitePlace j) ∧ (i0 :: is).IsChain (fun i j => NothingLost (made i) i j) ∧
    ReversedIn 1 (kite false) (kiteShape false).vol kiteMarks 1 2 0 1 (fun _ => -1) kitePlace cfg ((i0 :: is).getLast (by simp)) k0 := by
  unfold pairCheck at h
  rw [List.getLast?_eq_some_getLast (by simp)] at h
  simp only [List.head?_cons, Bool.and_eq_true, decide_eq_true_eq] at h
  obtain ⟨⟨h1, h2⟩, h3, h4⟩ := h
  refine ⟨fun j hj pop hp q hq => kite_placed (h1 j hj pop hp q hq).1 (h1 j hj pop hp q hq).2, h2, pairField, ?_, ?_⟩
  · rw [hw, hfac]
    have ep : ∀ (l : List (ℚ × Vec ℚ 2 × DSimplex ℚ)) (r : List (ℚ × Vec ℚ 2 × Int)), (∀ p ∈ l, p.2.2 = kitePlace p.2.1) →
        l.map (fun p => (p.1, p.2.1, p.2.2.index)) = r → l = r.map (fun p => (p.1, p.2.1, kitePlace p.2.1)) := by
      rintro l _ hl rfl
      rw [List.map_map]
      exact ((List.map_congr_left fun p hp => by
        show (p.1, p.2.1, kitePlace p.2.1) = p
        rw [← hl p hp]).trans (List.map_id' l)).symm
    have k : ∀ y : Vec ℚ 2, 0 ≤ y 1 → kitePlace y = (kiteCells false)[0] := fun y h => if_neg (not_lt.2 h)
    have := ep _ _ ?_ h3
    · rw [Option.getD_none, this]
      simp only [List.map_cons, List.map_nil]
      rw [k ![7 / 8, 1 / 32] (by decide +kernel), k ![7 / 8, 1 / 2] (by decide +kernel)]
      exact pair_field
    · intro p hp
      unfold pointsIn at hp
      obtain ⟨pop, -, hp⟩ := List.mem_flatMap.1 hp
      obtain ⟨q, -, rfl⟩ := List.mem_map.1 hp
      rfl
  · rw [hdt]
    exact h4

end

/-- C131 applies: the second simulation leads back. -/
example : ∃ i0 is k0 ks, pairRun pairInit = .ok (i0, is) ∧ pairRun pairBack = .ok (k0, ks) ∧
    List.Forall₂ (ReversedIn 1 (kite false) (kiteShape false).vol kiteMarks 1 2 0 1 (fun _ => -1) kitePlace kiteCfg) (i0 :: is).reverse (k0 :: ks) := by
  have a : ((pairRun pairInit).toOption.bind fun r => (pairRun pairBack).toOption.map fun r' =>
      pairCheck (fun i => i.made kiteCfg 2) (r.1 :: r.2) (r'.1 :: r'.2)) = some true := by decide +kernel
  obtain ⟨i0, is, hr⟩ : ∃ i0 is, pairRun pairInit = .ok (i0, is) := by
    cases h : pairRun pairInit with
    | error e => rw [h] at a; cases a
    | ok r => exact ⟨r.1, r.2, rfl⟩
  obtain ⟨k0, ks, hr'⟩ : ∃ i0 is, pairRun pairBack = .ok (i0, is) := by
    cases h : pairRun pairBack with
    | error e => rw [hr, h] at a; cases a
    | ok r => exact ⟨r.1, r.2, rfl⟩
  refine ⟨i0, is, k0, ks, hr, hr', ?_⟩
  rw [hr, hr'] at a
  simp only [Except.toOption, Option.map_some, Option.bind_some, Option.some.injEq] at a
  obtain ⟨c1, c2, c3⟩ := pair_checked (cfg := kiteCfg) rfl rfl rfl a
  obtain ⟨M, s, e, hs, key⟩ := C131_run (τ := Unit) (V := ℚ) (ρ := Nat) (eps := (1 : ℚ)) kite_triangulation kite_convex 0
    (pmarker := fun F => if F = 1 then 0 else 1) (by decide) one_pos (kite_meshed false) (kite_linked false) (dd := kiteBCs) rfl rfl
  have hM : kiteMesh = M := by unfold kiteMesh; rw [e]; rfl
  have hs' : s = kiteSolver := by
    have : createOn 1 (kite false) (kiteShape false) 3 kiteMarks kiteBCs = .ok kiteSolver := rfl
    rw [hs] at this
    cases this
    rfl
  subst hs'
  unfold pairRun at hr hr'
  rw [← onCells_kite] at hr hr'
  exact key (bc := fun _ => kiteSink) (bc' := fun _ => kiteSink) (fun _ => kite_sink M (kite_interior e)) (fun _ => kite_sink M (kite_interior e))
    (maxCross := 10) (maxCross' := 10) (qom := fun _ => -1) (cfg := kiteCfg) (cfg' := kiteCfg) (by rw [← hM]; rfl) (by rw [← hM]; rfl) rfl rfl rfl rfl
    (fun _ _ _ => rfl) (by simp [kiteCfg]) kite_plasma kite_plasma kite_goodCfg kite_goodCfg 1 (pair_in (.inl rfl)) (pair_in (.inr rfl))
    (kite_fresh 1) (kite_fresh 1) (by simp [kiteIdeal]) (by simp [kiteIdeal]) (by simp [kiteState]) (by simp [kiteState]) hr hr' c1 c2 c3

def pairCppRun (gs : List (String × List KitePart)) :=
  Comp.run kiteCppCfg 2 4 onKite (some gs) [0, 0, 0, 0] 1 kiteCppIdeal

/-- C131 applies in compiled code. -/
example : ∃ i0 is k0 ks, pairCppRun pairInit = .ok (i0, is) ∧ pairCppRun pairBack = .ok (k0, ks) ∧
    List.Forall₂ (ReversedIn 1 (kite false) (kiteShape false).vol kiteMarks 1 2 0 1 (fun _ => -1) kitePlace kiteCppCfg) (i0 :: is).reverse (k0 :: ks) := by
  have a : ((pairCppRun pairInit).toOption.bind fun r => (pairCppRun pairBack).toOption.map fun r' =>
      pairCheck (fun i sn => Comp.made kiteCppCfg 2 sn i) (r.1 :: r.2) (r'.1 :: r'.2)) = some true := by decide +kernel
  obtain ⟨i0, is, hr⟩ : ∃ i0 is, pairCppRun pairInit = .ok (i0, is) := by
    cases h : pairCppRun pairInit with
    | error e => rw [h] at a; cases a
    | ok r => exact ⟨r.1, r.2, rfl⟩
  obtain ⟨k0, ks, hr'⟩ : ∃ i0 is, pairCppRun pairBack = .ok (i0, is) := by
    cases h : pairCppRun pairBack with
    | error e => rw [hr, h] at a; cases a
    | ok r => exact ⟨r.1, r.2, rfl⟩
  refine ⟨i0, is, k0, ks, hr, hr', ?_⟩
  rw [hr, hr'] at a
  simp only [Except.toOption, Option.map_some, Option.bind_some, Option.some.injEq] at a
  obtain ⟨c1, c2, c3⟩ := pair_checked (cfg := kiteCppCfg) rfl rfl rfl a
  obtain ⟨M, cm, s, e, ecm, hs, key⟩ := C131_compiled (τ := Unit) (V := ℚ) (ρ := Nat) (eps := (1 : ℚ)) kite_triangulation kite_numbered kite_convex 0
    (pmarker := fun F => if F = 1 then 0 else 1) (by decide) one_pos (kite_meshed false) (kite_linked false) (dd := kiteBCs) rfl rfl
  have hcm : kiteCpp = cm := by unfold kiteCpp; rw [ecm]; rfl
  have hs' : s = kiteSolver := by
    have : createOn 1 (kite false) (kiteShape false) 3 kiteMarks kiteBCs = .ok kiteSolver := rfl
    rw [hs] at this
    cases this
    rfl
  subst hs'
  have hpl : PlasmaOn kiteCppCfg (kite false) (kiteShape false) 3 kiteMarks kiteSolver (fun k => k) 2 := by
    obtain ⟨a1, a2, a3, a4, a5, a6, a7, a8⟩ := kite_plasma
    exact ⟨a1, a2, a3, a4, a5, a6, a7, a8⟩
  have hev : CppLoop.GoodEvery kiteCppCfg := ⟨by simp [kiteCppCfg], by simp [kiteCppCfg], by simp [kiteCppCfg]⟩
  unfold pairCppRun at hr hr'
  rw [← onCells_kite] at hr hr'
  exact key (L := layoutXY) C66_layouts.2.1 (bc := fun _ => kiteSink) (bc' := fun _ => kiteSink) (fun _ => kite_sink M (kite_interior e))
    (fun _ => kite_sink M (kite_interior e)) (maxCross := 10) (maxCross' := 10) (qom := fun _ => -1) (cfg := kiteCppCfg) (cfg' := kiteCppCfg)
    (by rw [← hcm]; rfl) (by rw [← hcm]; rfl) rfl rfl rfl rfl (fun _ _ _ => rfl) (by simp [kiteCppCfg]) hpl hpl (le_refl 2) (le_refl 2) hev hev
    (skip := 2) (skip' := 2) (by decide) (by decide) 1 (pair_in (.inl rfl)) (pair_in (.inr rfl)) kiteCpp_fresh kiteCpp_fresh
    (by simp [kiteCppIdeal]) (by simp [kiteCppIdeal]) (by simp [kiteCppState]) (by simp [kiteCppState]) hr hr' c1 c2 c3

end Demo
end Dt
