import Verif.Model.IntervalMesh
import Verif.Props.CppPlasma

/-!
# Interval meshes are built as the one-dimensional theorems assume (C122)
-/

set_option linter.unusedSectionVars false

namespace Dt
open Dt.Topology Spec
variable {K : Type} [Field K] [LinearOrder K] [IsStrictOrderedRing K]

theorem interval_mem {x : Nat → K} {N : Nat} {c : DSimplex K} : c ∈ (intervalD x N).cells ↔ ∃ i, i < N ∧ c = intervalCell i := by
  simp only [intervalD, List.mem_map, List.mem_range]
  constructor
  · rintro ⟨i, hi, rfl⟩; exact ⟨i, hi, rfl⟩
  · rintro ⟨i, hi, rfl⟩; exact ⟨i, hi, rfl⟩

theorem interval_lt {x : Nat → K} {N : Nat} (hx : ∀ i, i < N → x i < x (i + 1)) {a b : Nat} (hb : b ≤ N) (h : a < b) : x a < x b := by
  induction b, h using Nat.le_induction with
  | base => exact hx a (by omega)
  | succ b h ih => exact (ih (by omega)).trans (hx b (by omega))

theorem interval_le {x : Nat → K} {N : Nat} (hx : ∀ i, i < N → x i < x (i + 1)) {a b : Nat} (hb : b ≤ N) (h : a ≤ b) : x a ≤ x b := by
  rcases h.lt_or_eq with h | rfl
  · exact (interval_lt hx hb h).le
  · exact le_rfl

theorem interval_has {x : Nat → K} {N : Nat} (c f : Int) :
    HasFacet (intervalD x N).topo c f ↔ ∃ i : Nat, i < N ∧ c = i ∧ (f = i ∨ f = i + 1) := by
  constructor
  · rintro ⟨fs, h1, h2⟩
    obtain ⟨d, hd, he⟩ := List.mem_map.1 h1
    obtain ⟨i, hi, rfl⟩ := interval_mem.1 hd
    simp only [intervalCell, Prod.mk.injEq] at he
    obtain ⟨rfl, rfl⟩ := he
    simp only [List.mem_cons, List.not_mem_nil, or_false] at h2
    exact ⟨i, hi, rfl, h2⟩
  · rintro ⟨i, hi, rfl, h⟩
    refine ⟨[(i : Int), (i : Int) + 1], List.mem_map.2 ⟨intervalCell i, interval_mem.2 ⟨i, hi, rfl⟩, rfl⟩, ?_⟩
    simpa using h

theorem interval_manifold (x : Nat → K) (N : Nat) : Manifold (intervalD x N).topo 2 := by
  refine ⟨?_, ?_, ?_, ?_, ?_, ?_, ?_⟩
  · rw [topo_keys]
    simp only [intervalD, List.map_map, Function.comp_def, intervalCell]
    exact List.Nodup.map (fun a b h => by simpa using h) List.nodup_range
  · intro c hc
    obtain ⟨d, hd, rfl⟩ := List.mem_map.1 hc
    obtain ⟨i, hi, rfl⟩ := interval_mem.1 hd
    simp [intervalCell]
  · intro c hc
    obtain ⟨d, hd, rfl⟩ := List.mem_map.1 hc
    obtain ⟨i, hi, rfl⟩ := interval_mem.1 hd
    rfl
  · intro c hc
    obtain ⟨d, hd, rfl⟩ := List.mem_map.1 hc
    obtain ⟨i, hi, rfl⟩ := interval_mem.1 hd
    simp [intervalCell]
  · intro c f
    rw [interval_has]
    show c ∈ intervalAttached N f ↔ _
    unfold intervalAttached
    rw [List.mem_append]
    constructor
    · rintro (h | h)
      · split at h
        · simp only [List.mem_singleton] at h
          exact ⟨(f - 1).toNat, by omega, by omega, by omega⟩
        · cases h
      · split at h
        · simp only [List.mem_singleton] at h
          exact ⟨f.toNat, by omega, by omega, by omega⟩
        · cases h
    · rintro ⟨i, hi, rfl, rfl | rfl⟩
      · right; rw [if_pos ⟨by omega, by omega⟩]; simp
      · left; rw [if_pos ⟨by omega, by omega⟩]; simp
  · intro f
    show (intervalAttached N f).Nodup
    unfold intervalAttached
    split <;> split <;> simp
  · intro f
    show (intervalAttached N f).length ≤ 2
    unfold intervalAttached
    split <;> split <;> simp

theorem interval_corner0 (x : Nat → K) (N i : Nat) : corner (intervalD x N) (intervalCell i) 0 = ![x i] := rfl
theorem interval_corner1 (x : Nat → K) (N i : Nat) : corner (intervalD x N) (intervalCell i) 1 = ![x (i + 1)] := rfl

/-- C122 (geometry).  An interval mesh is a triangulation. -/
theorem C122_triangulation {x : Nat → K} {N : Nat} (hx : ∀ i, i < N → x i < x (i + 1)) :
    Triangulation (by decide : 1 ≤ 3) (intervalD x N) := by
  refine ⟨le_rfl, interval_manifold x N, ?_, ?_, ?_, ?_, ?_, ?_⟩
  · intro c hc F hF
    obtain ⟨i, hi, rfl⟩ := interval_mem.1 hc
    simp only [intervalCell, List.mem_cons, List.not_mem_nil, or_false] at hF
    omega
  · intro c hc
    obtain ⟨i, hi, rfl⟩ := interval_mem.1 hc
    rfl
  · intro c hc c' hc' k k' F h1 h2 v
    obtain ⟨i, hi, rfl⟩ := interval_mem.1 hc
    obtain ⟨i', hi', rfl⟩ := interval_mem.1 hc'
    have key : ∀ (i k : Nat) (F : Int), (intervalCell (K := K) i).facets[k]? = some F →
        (OfFacet 1 (intervalCell (K := K) i) k v ↔ (v : Int) = F) := by
      intro i k F h
      unfold OfFacet onFacet
      simp only [if_true, exists_eq_left]
      rcases k with _ | _ | k
      · simp [intervalCell] at h ⊢; omega
      · simp [intervalCell] at h ⊢; omega
      · simp [intervalCell] at h
    rw [key i k F h1, key i' k' F h2]
  · intro c hc k i j hi hj
    unfold onFacet at hi hj
    simp only [if_true] at hi hj
    have : i = j := Fin.ext (hi.trans hj.symm)
    subst this
    simp [dot]
  · intro c hc k i j hi hj
    obtain ⟨m, hm, rfl⟩ := interval_mem.1 hc
    have := hx m hm
    unfold onFacet at hi hj
    simp only [if_true] at hi hj
    fin_cases k <;> fin_cases i <;> fin_cases j <;> simp at hi hj <;>
      simp [dot, cutNormal, interval_corner0, interval_corner1] <;> simp [intervalCell] <;> linarith
  · intro c hc c' hc' hne p ⟨⟨w, hw, hs, hp⟩, ⟨w', hw', hs', hp'⟩⟩
    obtain ⟨i, hi, rfl⟩ := interval_mem.1 hc
    obtain ⟨i', hi', rfl⟩ := interval_mem.1 hc'
    have e := hp 0
    have e' := hp' 0
    rw [Fin.sum_univ_two, interval_corner0, interval_corner1] at e e'
    rw [Fin.sum_univ_two] at hs hs'
    simp only [Matrix.cons_val_fin_one] at e e'
    have a0 := hw 0
    have a1 := hw 1
    have b0 := hw' 0
    have b1 := hw' 1
    have l1 := hx i hi
    have l2 := hx i' hi'
    have q1 : w 0 = 1 - w 1 := by linarith
    have q2 : w' 0 = 1 - w' 1 := by linarith
    rw [q1] at e a0
    rw [q2] at e' b0
    have r1 : x i < p 0 := by nlinarith
    have r2 : p 0 < x (i + 1) := by nlinarith
    have r3 : x i' < p 0 := by nlinarith
    have r4 : p 0 < x (i' + 1) := by nlinarith
    have : i ≠ i' := fun h => hne (by rw [h])
    rcases Nat.lt_or_gt_of_ne this with h | h
    · have := interval_le hx (a := i + 1) (b := i') hi'.le h; linarith
    · have := interval_le hx (a := i' + 1) (b := i) hi.le h; linarith

/-- C122 (numbering). -/
theorem C122_numbered (x : Nat → K) (N : Nat) : Numbered (intervalD x N) (N + 1) := by
  constructor
  · intro c hc
    obtain ⟨i, hi, rfl⟩ := interval_mem.1 hc
    simp [intervalCell, intervalD]; omega
  · intro c hc v hv
    obtain ⟨i, hi, rfl⟩ := interval_mem.1 hc
    simp [intervalCell] at hv; omega

/-- The points between the ends. -/
def betweenEnds (x : Nat → K) (N : Nat) (y : Vec K 1) : Bool := decide (x 0 ≤ y 0 ∧ y 0 ≤ x N)

/-- C122 (domain).  The cells fill the points between the ends, which lie behind the two end facets. -/
theorem C122_convex {x : Nat → K} {N : Nat} (hx : ∀ i, i < N → x i < x (i + 1)) :
    ConvexDomain (by decide : 1 ≤ 3) (intervalD x N) (betweenEnds x N) := by
  constructor
  · intro c hc y ⟨w, hw, hs, hy⟩
    obtain ⟨i, hi, rfl⟩ := interval_mem.1 hc
    have e := hy 0
    rw [Fin.sum_univ_two, interval_corner0, interval_corner1] at e
    rw [Fin.sum_univ_two] at hs
    simp only [Matrix.cons_val_fin_one] at e
    have a0 := hw 0
    have a1 := hw 1
    have l1 := hx i hi
    have q1 : w 0 = 1 - w 1 := by linarith
    rw [q1] at e a0
    have h0 := interval_le hx (a := 0) (b := i) hi.le (Nat.zero_le _)
    have hN := interval_le hx (a := i + 1) (b := N) le_rfl hi
    rw [betweenEnds, decide_eq_true_eq]
    constructor <;> nlinarith
  · intro c hc k F hF hone i hi y hy
    obtain ⟨m, hm, rfl⟩ := interval_mem.1 hc
    rw [betweenEnds, decide_eq_true_eq] at hy
    unfold onFacet at hi
    simp only [if_true] at hi
    rcases k with _ | _ | k
    · simp only [intervalCell, List.getElem?_cons_zero, Option.some.injEq] at hF
      subst hF
      have h0 : m = 0 := by
        by_contra h
        have := hone (intervalCell (m - 1)) (interval_mem.2 ⟨m - 1, by omega, rfl⟩) (by simp [intervalCell]; omega)
        simp [intervalCell] at this; omega
      subst h0
      have : i = 0 := Fin.ext hi
      subst this
      simp [dot, cutNormal, interval_corner0]
      simp [intervalCell]; linarith [hy.1]
    · simp only [intervalCell, Nat.zero_add, List.getElem?_cons_succ, List.getElem?_cons_zero, Option.some.injEq] at hF
      subst hF
      have h0 : m + 1 = N := by
        by_contra h
        have := hone (intervalCell (m + 1)) (interval_mem.2 ⟨m + 1, by omega, rfl⟩) (by simp [intervalCell])
        simp [intervalCell] at this
      have : i = 1 := Fin.ext hi
      subst this
      simp [dot, cutNormal, interval_corner1]
      simp [intervalCell, h0]; linarith [hy.2]
    · simp [intervalCell] at hF

/-- The neighbour table of an interval cell. -/
theorem interval_row {x : Nat → K} {N i : Nat} (hi : i < N) {row : List Int}
    (h : List.Forall₂ (IsNeighbor (intervalD x N).topo i) [(i : Int), (i : Int) + 1] row) : row = (lineCell x N i).neighbors := by
  have hl : List.Forall₂ (IsNeighbor (intervalD x N).topo i) [(i : Int), (i : Int) + 1] (lineCell x N i).neighbors := by
    refine .cons ?_ (.cons ?_ .nil)
    · by_cases h0 : i = 0
      · rw [if_pos h0]
        refine .inl ⟨rfl, fun d hd => ?_⟩
        obtain ⟨j, hj, rfl, h | h⟩ := (interval_has _ _).1 hd <;> omega
      · rw [if_neg h0]
        exact .inr ⟨by omega, (interval_has _ _).2 ⟨i - 1, by omega, by omega, by omega⟩⟩
    · by_cases h0 : i + 1 = N
      · rw [if_pos h0]
        refine .inl ⟨rfl, fun d hd => ?_⟩
        obtain ⟨j, hj, rfl, h | h⟩ := (interval_has _ _).1 hd <;> omega
      · rw [if_neg h0]
        exact .inr ⟨by omega, (interval_has _ _).2 ⟨i + 1, by omega, by omega, by omega⟩⟩
  have hf : ∀ f ∈ [(i : Int), (i : Int) + 1], HasFacet (intervalD x N).topo i f := fun f hf => by
    simp only [List.mem_cons, List.not_mem_nil, or_false] at hf
    exact (interval_has _ _).2 ⟨i, hi, rfl, hf⟩
  generalize (lineCell x N i).neighbors = r at hl
  generalize [(i : Int), (i : Int) + 1] = fs at h hl hf
  induction h generalizing r with
  | nil => cases hl; rfl
  | cons hd _ ih =>
    cases hl with
    | cons hd' tl' => rw [isNeighbor_unique (interval_manifold x N) (hf _ (by simp)) hd hd', ih _ tl' (fun f h => hf f (by simp [h]))]

theorem interval_made {x : Nat → K} {N i : Nat} : made (by decide : 1 ≤ 3) (intervalD x N) (intervalCell i) (lineCell x N i).neighbors = lineCell x N i := by
  unfold made lineCell
  congr 1
  simp only [List.range_succ, List.range_zero, List.nil_append, List.map_cons, List.map_nil, List.singleton_append]
  congr 1
  · funext j; rw [Subsingleton.elim j 0]; rfl
  · congr 1
    funext j; rw [Subsingleton.elim j 0]; rfl

/-- C122 (Python).  The dictionaries made from an interval mesh are those of `lineMesh`. -/
theorem C122_python (x : Nat → K) (N : Nat) (junk : Int) (marker : Int → Int) :
    buildMesh (by decide : 1 ≤ 3) (intervalD x N) junk marker = .ok (lineMesh x N marker) := by
  obtain ⟨M, e, hmk, hinv, hex⟩ := build_ok (hg := by decide) (interval_manifold x N) junk marker
  rw [e]
  congr 1
  cases M with
  | mk cell mk =>
    simp only at hmk hinv hex
    subst hmk
    unfold lineMesh
    congr 1
    funext ci
    by_cases h : 0 ≤ ci ∧ ci < N
    · rw [if_pos h]
      obtain ⟨row, hr⟩ := hex (intervalCell ci.toNat) (interval_mem.2 ⟨ci.toNat, by omega, rfl⟩)
      have hci : (intervalCell (K := K) ci.toNat).index = ci := by simp [intervalCell]; omega
      rw [hci] at hr
      obtain ⟨c, hc, h1, row', h2, h3⟩ := hinv _ _ hr
      obtain ⟨i, hi, rfl⟩ := interval_mem.1 hc
      have : i = ci.toNat := by simp [intervalCell] at h1; omega
      subst this
      rw [hr, h3]
      rw [← h1] at h2
      rw [interval_row hi h2, interval_made]
    · rw [if_neg h]
      cases hc : cell ci with
      | none => rfl
      | some C =>
        obtain ⟨c, hcm, h1, -⟩ := hinv _ _ hc
        obtain ⟨i, hi, rfl⟩ := interval_mem.1 hcm
        simp [intervalCell] at h1; omega

/-- C122 (compiled code).  The arrays made from an interval mesh are those of `lineCpp`. -/
theorem C122_compiled (x : Nat → K) (N : Nat) (marker : Int → Int) :
    buildCpp (intervalD x N) (N + 1) marker = .ok (lineCpp x N marker) := by
  have hk := (interval_manifold x N).nodup
  rw [topo_keys] at hk
  have k1 : ((cellDict (intervalD x N)).map (·.1)).Nodup := by
    simpa [cellDict, List.map_map, Function.comp_def] using hk
  have hlen : (intervalD x N).cells.length = N := by simp [intervalD]
  have hin : ∀ {β : Type} (b : β), ∀ c ∈ (intervalD x N).cells, 0 ≤ c.index ∧
      c.index.toNat < (List.replicate (intervalD x N).cells.length b).length := by
    intro β b c hc
    obtain ⟨i, hi, rfl⟩ := interval_mem.1 hc
    rw [List.length_replicate, hlen]
    simp [intervalCell]; omega
  have hrow : ∀ c ∈ (intervalD x N).cells, ∃ vs, List.Forall₂ (fun f v => cppNeighbor (intervalD x N).topo c.index f = .ok v) c.facets vs ∧
      List.Forall₂ (IsNeighbor (intervalD x N).topo c.index) c.facets vs := by
    intro c hc
    have : ∀ f ∈ c.facets, ∃ v, cppNeighbor (intervalD x N).topo c.index f = .ok v ∧ IsNeighbor (intervalD x N).topo c.index f v := by
      intro f hf
      obtain ⟨v, -, h2, h3⟩ := isNeighbor_of (interval_manifold x N) (c := c.index) (f := f) ⟨c.facets, List.mem_map.2 ⟨c, hc, rfl⟩, hf⟩
      exact ⟨v, h2, h3⟩
    generalize c.facets = fs at this ⊢
    induction fs with
    | nil => exact ⟨[], .nil, .nil⟩
    | cons f fs ih =>
      obtain ⟨v, h1, h2⟩ := this f (by simp)
      obtain ⟨vs, h3, h4⟩ := ih (fun f hf => this f (by simp [hf]))
      exact ⟨v :: vs, .cons h1 h3, .cons h2 h4⟩
  choose! vs hvs1 hvs2 using hrow
  obtain ⟨nbs, e1, -, hnb, -⟩ := fillArray_ok (P := fun r : List Int => r.length = 2) (val := vs)
    (row := fun c row => fillRow (cppNeighbor (intervalD x N).topo c.index) c.facets 0 row) (intervalD x N).cells
    (fun c hc b hb => by
      have hfl : c.facets.length = 2 := by obtain ⟨i, hi, rfl⟩ := interval_mem.1 hc; rfl
      refine ⟨?_, by rw [← (hvs1 c hc).length_eq, hfl]⟩
      have := fillRow_any (cppNeighbor (intervalD x N).topo c.index) c.facets (vs c) [] b (hvs1 c hc) (by rw [hb, hfl])
      simpa using this) hk (List.replicate (intervalD x N).cells.length (List.replicate 2 0))
    (fun b hb => by rw [(List.mem_replicate.1 hb).2, List.length_replicate]) (hin _)
  obtain ⟨ns, e2, -, hns, -⟩ := fillArray_ok (P := fun _ : List K => True) (val := fun c => cppNormalTable c.normal 2)
    (row := fun c _ => .ok (cppNormalTable c.normal 2)) (intervalD x N).cells (fun c hc b hb => ⟨rfl, trivial⟩) hk
    (List.replicate (intervalD x N).cells.length (List.replicate 6 0)) (fun _ _ => trivial) (hin _)
  have f1 : neighborsArray (intervalD x N) = .ok nbs := e1
  have f2 : normalsArray (intervalD x N) = .ok ns := e2
  unfold buildCpp
  rw [f1, f2]
  show Except.ok _ = Except.ok _
  congr 1
  unfold lineCpp
  congr 1
  · simp only [flatCoords, intervalD, List.flatMap_def]
    rw [show (fun v => List.ofFn (![x v] : Vec K 1)) = fun v => [x v] from rfl]
    induction (List.range (N + 1)) with
    | nil => rfl
    | cons a l ih => simpa using ih
  · funext ci
    by_cases h : 0 ≤ ci ∧ ci < N
    · rw [if_pos h]
      have hm : intervalCell ci.toNat ∈ (intervalD x N).cells := interval_mem.2 ⟨ci.toNat, by omega, rfl⟩
      have hci : (intervalCell (K := K) ci.toNat).index = ci := by simp [intervalCell]; omega
      have g1 := (dictGet_iff k1 _ _).2 (List.mem_map.2 ⟨_, hm, rfl⟩)
      have g2 := hnb _ hm
      have g3 := hns _ hm
      have g4 := hvs2 _ hm
      rw [hci] at g1 g2 g3
      rw [g1, g2, g3, interval_row (by omega) g4]
      simp [bind, intervalCell, cppNormalTable, vertexTable, List.range_succ, intervalD, lineCell]
    · rw [if_neg h]
      cases hd : dictGet (cellDict (intervalD x N)) ci with
      | none => rfl
      | some c =>
        obtain ⟨c', hc', he⟩ := List.mem_map.1 ((dictGet_iff k1 _ _).1 hd)
        obtain ⟨i, hi, rfl⟩ := interval_mem.1 hc'
        simp [intervalCell] at he; omega

/-- C122 (linear elements). -/
theorem C122_meshed {x : Nat → K} {N : Nat} (hx : ∀ i, i < N → x i < x (i + 1)) :
    Meshed (intervalD x N) (intervalShape x) N := by
  refine ⟨?_, ?_, ?_, ?_⟩
  · intro c hc
    obtain ⟨i, hi, rfl⟩ := interval_mem.1 hc
    rfl
  · intro c hc v hv
    obtain ⟨i, hi, rfl⟩ := interval_mem.1 hc
    simp [intervalCell] at hv; omega
  · intro c hc k j
    obtain ⟨i, hi, rfl⟩ := interval_mem.1 hc
    have h : x (i + 1) - x i ≠ 0 := (sub_pos.2 (hx i hi)).ne'
    have hi' : (intervalCell (K := K) i).index.toNat = i := by simp [intervalCell]
    fin_cases k <;> fin_cases j <;> simp [dot, intervalShape, hi', interval_corner0, interval_corner1] <;> field_simp
  · intro c hc
    obtain ⟨i, hi, rfl⟩ := interval_mem.1 hc
    have := hx i hi
    simpa [intervalShape, intervalCell] using this

/-- C122 (electrodes).  Every vertex is connected with the left end. -/
theorem C122_linked {x : Nat → K} {N : Nat} (hN : 0 < N) {marker : Int → Int} {lo hi : Int} (h0 : marker 0 = lo) :
    ∀ i ≤ N, Linked (intervalD x N) (fun i => OnSide (intervalD x N) marker lo i ∨ OnSide (intervalD x N) marker hi i) i := by
  intro i hi
  induction i with
  | zero =>
    refine .base (.inl ⟨intervalCell 0, interval_mem.2 ⟨0, hN, rfl⟩, 0, 0, by omega, rfl, h0, ⟨0, ?_, rfl⟩⟩)
    simp [onFacet]
  | succ i ih =>
    exact .step (c := intervalCell i) (i := i) (interval_mem.2 ⟨i, by omega, rfl⟩) (by simp [intervalCell]) (by simp [intervalCell]) (ih (by omega))

/-- C122 (crossings).  A particle goes through at most as many cells as there are. -/
theorem C122_crossings {x : Nat → K} {N : Nat} (hx : ∀ i, i < N → x i < x (i + 1)) :
    AtMost (by decide : 1 ≤ 3) (intervalD x N) N := by
  have := C102_line (C122_triangulation hx)
  simpa [intervalD] using this

/-- C122 (plasma).  What C120 says of triangulations is said of interval meshes of any spacing: the meshes of the Python
code and of the compiled code are `lineMesh` and `lineCpp`, the solver is made, and simulations between two absorbing
plates are simulations of particles in their own electric field, and end if there are no sources. -/
theorem C122_plasma {V ρ τ : Type} {x : Nat → K} {N : Nat} (hN : 0 < N) (hx : ∀ i, i < N → x i < x (i + 1))
    {marker pmarker : Int → Int} {lo hi : Int} (hmk : marker 0 = lo) (hp0 : pmarker 0 ≠ 0) (hpN : pmarker N ≠ 0)
    {eps : K} (he : 0 < eps) {v0 vN : K} {dd : List (String × Int × Poisson.Val K)}
    (h1 : dd.lookup "rmin" = some (lo, .num v0)) (h2 : dd.lookup "rmax" = some (hi, .num vN)) :
    ∃ s, Poisson.createOn eps (intervalD x N) (intervalShape x) N marker dd = .ok s ∧
      ∀ {L : Layout K 1}, L.Right →
      ∀ {bc : String → Int → τ → BCall K 1 1 ρ → Except Err (τ × Part K 1 ρ)}, (∀ sn, PlainBC (lineMesh x N pmarker) (bc sn)) →
      ∀ {maxCross : Nat}, N ≤ maxCross → ∀ {qom : String → K}
        {cfg : TimeLoop.Cfg K V (Part K 1 ρ) ((τ × Vec K 1) × Scratch K) (List (Vec K 1))},
        cfg.move = CppLoop.cppMove (le_refl 1) L (lineCpp x N pmarker) bc maxCross cfg.dt qom
          (fun _ f q => (f[q.cell.toNat]?).map (fun e => -e)) →
        cfg.sources = [] →
        ∀ {d : Nat → Nat} {C sl : Nat}, PlasmaOn cfg (intervalD x N) (intervalShape x) N marker s d C → 2 ≤ sl → CppLoop.GoodEvery cfg →
        ∀ {skip : Int}, skip ≠ 0 → ∀ (n : Nat) {gs : List (String × List (Part K 1 ρ))},
        (∀ a ∈ gs, ∀ q ∈ a.2, ∃ i : Nat, i < N ∧ q.cell = i ∧ x i ≤ q.x 0 ∧ q.x 0 ≤ x (i + 1) ∧ q.del = false) →
        ∀ {st : CppLoop.State K V (Part K 1 ρ) ((τ × Vec K 1) × Scratch K) (List (Vec K 1))}
          {i : Ideal K V (Part K 1 ρ) ((τ × Vec K 1) × Scratch K)} {b : List K},
        CppLoop.Fresh sl (N + 1) C skip st i b → (i.pops.map (·.name)).Nodup → (st.file = none → cfg.partEvery = none) →
        (gs.map (·.2.length)).sum < 4294967296 → (∀ a ∈ gs, a.1 ∈ i.pops.map (·.name)) →
        ∃ i0 is st', CppLoop.run cfg (some gs) n st = .ok st' ∧ CppOutcome Eq cfg d C skip true b st st' i0 is ∧
          (i0 :: is).IsChain (Comp.PlasmaStep eps (intervalD x N) (intervalShape x).vol marker lo hi v0 vN (betweenEnds x N) qom cfg sl) := by
  obtain ⟨M, cm, s, e1, e2, hs, key⟩ := C120_plasma (V := V) (τ := τ) (ρ := ρ) (pmarker := pmarker) (C122_triangulation hx) (C122_numbered x N)
    (C122_convex hx) 0 (by
      intro c hc F hF hone
      obtain ⟨m, hm, rfl⟩ := interval_mem.1 hc
      simp only [intervalCell, List.mem_cons, List.not_mem_nil, or_false] at hF
      rcases hF with rfl | rfl
      · have : m = 0 := by
          by_contra h
          have := hone (intervalCell (m - 1)) (interval_mem.2 ⟨m - 1, by omega, rfl⟩) (by simp [intervalCell]; omega)
          simp [intervalCell] at this; omega
        subst this
        exact hp0
      · have : m + 1 = N := by
          by_contra h
          have := hone (intervalCell (m + 1)) (interval_mem.2 ⟨m + 1, by omega, rfl⟩) (by simp [intervalCell])
          simp [intervalCell] at this
        rw [show ((m : Int) + 1) = (N : Int) by omega]
        exact hpN) he (C122_meshed hx) (C122_linked hN hmk) h1 h2
  rw [C122_python] at e1
  rw [C122_compiled] at e2
  cases e1
  cases e2
  refine ⟨s, hs, ?_⟩
  intro L hL bc hb maxCross hmax qom cfg hmove hsrc d C sl hP hsl hc skip hsk n gs hgs st i b hf hn hnone hlen hnames
  obtain ⟨k1, k2⟩ := key hL hb hmove (by rw [hsrc]; intro s hs; cases hs) hP hsl hc hsk n (init := some gs) (by
    intro gs' hgs' a ha q hq
    cases hgs'
    obtain ⟨j, hj, hc, ha1, ha2, hd⟩ := hgs a ha q hq
    have hlt := hx j hj
    have hne : x (j + 1) - x j ≠ 0 := (sub_pos.2 hlt).ne'
    refine ⟨⟨intervalCell j, interval_mem.2 ⟨j, hj, rfl⟩, hc.symm, ![(x (j + 1) - q.x 0) / (x (j + 1) - x j), (q.x 0 - x j) / (x (j + 1) - x j)], ?_, ?_, ?_⟩, hd⟩
    · intro k
      fin_cases k
      · exact div_nonneg (by linarith) (by linarith)
      · exact div_nonneg (by linarith) (by linarith)
    · rw [Fin.sum_univ_two]
      simp only [Matrix.cons_val_zero, Matrix.cons_val_one]
      field_simp
      ring
    · intro k
      rw [Subsingleton.elim k 0, Fin.sum_univ_two, interval_corner0, interval_corner1]
      simp only [Matrix.cons_val_zero, Matrix.cons_val_one, Matrix.cons_val_fin_one]
      field_simp
      ring) hf hn hnone
  obtain ⟨i0, is, hr⟩ := k2 (C122_crossings hx) hmax hsrc (by intro gs' hgs'; cases hgs'; exact ⟨hlen, hnames⟩)
  obtain ⟨a1, -, st', a2, a3⟩ := k1 hr
  exact ⟨i0, is, st', a2, a3, a1⟩

/-! ### The hypotheses are met -/

/-- A mesh with vertices at 0, 1, 4, 9, ... -/
example (N : Nat) : Triangulation (by decide : 1 ≤ 3) (intervalD (fun i => (i : ℚ) ^ 2) N) :=
  C122_triangulation (fun i _ => by push_cast; nlinarith [(Nat.cast_nonneg i : (0 : ℚ) ≤ i)])

example : ((buildMesh (by decide : 1 ≤ 3) (intervalD (fun i => (i : ℚ) ^ 2) 3) 77 (fun _ => 5)).toOption.bind
    (fun M => (M.cell 1).map (fun c => (c.verts.map (· 0), c.normals.map (· 0), c.facets, c.neighbors)))) =
    some ([1, 4], [-1, 1], [1, 2], [0, 2]) := by decide +kernel

/-- The vertices 0, 1, 3. -/
def plateX (i : Nat) : ℚ := if i = 0 then 0 else if i = 1 then 1 else 3

theorem plateX_lt : ∀ i, i < 2 → plateX i < plateX (i + 1) := by decide +kernel

def plateMarks (F : Int) : Int := if F = 0 then 1 else if F = 2 then 2 else 0

abbrev plateSolver : Poisson.Solver ℚ := Poisson.madeOn 1 (intervalD plateX 2) (intervalShape plateX) 2 plateMarks 1 2 0 1

def plateBCs : List (String × Int × Poisson.Val ℚ) := [("rmin", 1, .num 0), ("rmax", 2, .num 1)]

def plateSolve (b : List ℚ) : List ℚ := [b.getD 0 0, (b.getD 1 0 + b.getD 0 0 + b.getD 2 0 / 2) / (3 / 2), b.getD 2 0]

theorem plate_solves (b : List ℚ) (hb : b.length = 2 + 1) : Solves 2 plateSolver.A b (plateSolve b) := by
  obtain ⟨b0, b1, b2, rfl⟩ : ∃ b0 b1 b2, b = [b0, b1, b2] := by
    match b, hb with
    | [b0, b1, b2], _ => exact ⟨b0, b1, b2, rfl⟩
  have a : ∀ i ≤ 2, ∀ j ≤ 2, plateSolver.A i j =
      (if i = 1 then (if j = 1 then 3 / 2 else if j = 0 then -1 else -1 / 2) else if i = j then 1 else 0) := by decide +kernel
  refine ⟨rfl, ?_⟩
  intro i hi
  have hr : Finset.range (2 + 1) = {0, 1, 2} := by decide
  rw [hr, Finset.sum_insert (by decide), Finset.sum_insert (by decide), Finset.sum_singleton,
    a i hi 0 (by decide), a i hi 1 (by decide), a i hi 2 (by decide)]
  interval_cases i <;> simp [plateSolve]
  ring

def platePart (x u : ℚ) (cell : Int) : Part ℚ 1 Nat := ⟨![x], ![x], ![u], cell, false, false, 0, 7⟩

def plateSink : Int → Unit → BCall ℚ 1 1 Nat → Except Err (Unit × Part ℚ 1 Nat) := fun _ st b => bcAbsorb st b

theorem plate_sink : PlainBC (lineMesh plateX 2 plateMarks) plateSink := by
  refine ⟨fun st call n _ _ => ⟨_, rfl⟩, ?_, ?_, ?_⟩
  · intro value st call st' q' e
    simp only [plateSink, bcAbsorb, Except.ok.injEq, Prod.mk.injEq] at e
    rw [← e.2]
  · intro st call st' q' e h1 h2
    obtain ⟨ci, C, k, cj, hC, hF, hn, hne⟩ := h2
    obtain ⟨i, rfl, hi, rfl⟩ := lineMesh_cell hC
    refine absurd ?_ h1
    generalize call.facet = F at hF
    have : F = 1 := by
      interval_cases i <;> rcases k with _ | _ | k <;> simp [lineCell] at hF hn <;> omega
    subst this
    rfl
  · intro st call st' q' n e _
    simp only [plateSink, bcAbsorb, Except.ok.injEq, Prod.mk.injEq] at e
    rw [← e.2]

def plateCfg : TimeLoop.Cfg ℚ ℚ (Part ℚ 1 Nat) ((Unit × Vec ℚ 1) × Scratch ℚ) (List (Vec ℚ 1)) where
  dt := 1 / 2
  move := CppLoop.cppMove (le_refl 1) layoutX (lineCpp plateX 2 plateMarks) (fun _ => plateSink) 2 (1 / 2) (fun _ => -1)
    (fun _ f q => (f[q.cell.toNat]?).map (fun e => -e))
  sources := []
  attrs := [⟨"x", .field (fun q => q.x 0) true⟩, ⟨"species_index", .speciesIndex⟩]
  junk := 0
  partEvery := some 2
  cellEvery := some 3
  fieldEvery := some 1
  quantities := [.count]
  vel := []
  A := ⟨fun q => q.cell.toNat, fun _ => 1 / 4⟩
  SD := Poisson.meshSpace (intervalD plateX 2) (intervalShape plateX) (fun q => q.cell.toNat) (fun q => q.x)
  SC := ⟨fun c => [c], fun _ => [1]⟩
  vol := fun _ => 1
  ncell := 2
  bc := Poisson.applyVecOn (Poisson.touches (intervalD plateX 2) plateMarks) plateSolver.bcs
  solve := plateSolve
  factor := none
  fieldOf := Poisson.negEOn (intervalD plateX 2) (intervalShape plateX)

theorem plate_on : PlasmaOn plateCfg (intervalD plateX 2) (intervalShape plateX) 2 plateMarks plateSolver (fun k => k) 2 := by
  refine ⟨rfl, rfl, plate_solves, rfl, ?_, fun _ => rfl, rfl, ⟨fun _ _ => rfl, fun _ _ _ _ h => h, fun _ h => h⟩⟩
  intro k c hk
  match k with
  | 0 => cases hk; rfl
  | 1 => cases hk; rfl
  | k + 2 => cases hk

def plateState : CppLoop.State ℚ ℚ (Part ℚ 1 Nat) ((Unit × Vec ℚ 1) × Scratch ℚ) (List (Vec ℚ 1)) where
  count := 0
  time := 0
  sps := [⟨"e", CSAP.new 2 (platePart 0 0 0), -1, 1, 1, [0, 0, 0], [0, 0]⟩]
  side := (((), ![0]), fun _ => 99)
  field := []
  solver := ⟨[0, 0, 0], [0, 0, 0], [0, 0, 0]⟩
  file := some ⟨-1, []⟩
  hist := some ⟨2, []⟩
  phiLog := []
  cellLog := []

def plateIdeal : Ideal ℚ ℚ (Part ℚ 1 Nat) ((Unit × Vec ℚ 1) × Scratch ℚ) :=
  ⟨0, 0, [⟨"e", -1, 1, 1, ⟨[], false⟩⟩], (((), ![0]), fun _ => 99), []⟩

theorem plate_fresh : CppLoop.Fresh 2 (2 + 1) 2 2 plateState plateIdeal [0, 0, 0] := by
  refine ⟨rfl, rfl, rfl, rfl, rfl, ?_, ?_, ?_, ?_, rfl, rfl⟩
  · have h := CppProgram.start_rel (sl := 2) (by decide) (platePart 0 0 0) [true]
    cases h with
    | cons h _ => exact .cons ⟨rfl, rfl, rfl, rfl, h, rfl, rfl⟩ .nil
  · intro p hp
    simp only [plateIdeal, List.mem_singleton] at hp
    rw [hp]
  · exact .inr ⟨-1, rfl, by decide⟩
  · exact .inr rfl

/-- Three electrons; the second one leaves. -/
def plateInit : List (String × List (Part ℚ 1 Nat)) := [("e", [platePart (1 / 2) 1 0, platePart 2 4 1, platePart 3 (-1) 1])]

-- For any number of steps.
example (n : Nat) : ∃ i0 is st', CppLoop.run plateCfg (some plateInit) n plateState = .ok st' ∧
    CppOutcome Eq plateCfg (fun k => k) 2 2 true [0, 0, 0] plateState st' i0 is ∧
    (i0 :: is).IsChain (Comp.PlasmaStep 1 (intervalD plateX 2) (intervalShape plateX).vol plateMarks 1 2 0 1 (betweenEnds plateX 2)
      (fun _ => -1) plateCfg 2) := by
  obtain ⟨s, hs, key⟩ := C122_plasma (V := ℚ) (ρ := Nat) (τ := Unit) (by decide : 0 < 2) plateX_lt (marker := plateMarks) (pmarker := plateMarks)
    (lo := 1) (hi := 2) rfl (by decide) (by decide) (one_pos (α := ℚ)) (v0 := 0) (vN := 1) (dd := plateBCs) rfl rfl
  have hs' : s = plateSolver := by
    have : Poisson.createOn 1 (intervalD plateX 2) (intervalShape plateX) 2 plateMarks plateBCs = .ok plateSolver := rfl
    rw [hs] at this
    cases this
    rfl
  subst hs'
  refine key (L := layoutX) C66_layouts.1 (bc := fun _ => plateSink) (fun _ => plate_sink) (maxCross := 2) le_rfl (qom := fun _ => -1)
    (cfg := plateCfg) rfl rfl plate_on (le_refl 2) ⟨by simp [plateCfg], by simp [plateCfg], by simp [plateCfg]⟩ (skip := 2) (by decide) n
    ?_ plate_fresh (by simp [plateIdeal]) (by simp [plateState]) (by simp [plateInit]) ?_
  · intro a ha q hq
    simp only [plateInit, List.mem_singleton] at ha
    subst ha
    simp only [List.mem_cons, List.not_mem_nil, or_false] at hq
    rcases hq with rfl | rfl | rfl
    · exact ⟨0, by decide +kernel⟩
    · exact ⟨1, by decide +kernel⟩
    · exact ⟨1, by decide +kernel⟩
  · intro a ha
    simp only [plateInit, List.mem_singleton] at ha
    subst ha
    decide

/-- The positions in the states of the simulation on lists. -/
def plateView (n : Nat) : Option (List (List (ℚ × Int))) :=
  (Comp.run plateCfg 2 3 (onCells (intervalD plateX 2)) (some plateInit) [0, 0, 0] n plateIdeal).toOption.map
    (fun r => (r.1 :: r.2).map (fun i => i.pops.flatMap (fun p => p.st.items.map (fun q => (q.x 0, q.cell)))))

example : plateView 2 = some [[(1 / 2, 0), (2, 1), (3, 1)], [(25 / 24, 1), (125 / 48, 1)],
    [(7793 / 4608, 1), (10673 / 4608, 1)]] := by decide +kernel

end Dt
