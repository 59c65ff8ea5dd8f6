import Verif.Lemmas.Topology
import Verif.Lemmas.LineMesh
import Verif.Model.RadialMesh
import Mathlib.Algebra.Order.Ring.Rat
import Mathlib.Algebra.Order.Ring.Pow
import Mathlib.Analysis.SpecialFunctions.Pow.Real
import Mathlib.Tactic.Ring
import Mathlib.Tactic.Linarith
import Mathlib.Tactic.NormNum
import Mathlib.Tactic.FieldSimp
import Mathlib.Tactic.Positivity

/-!
# Properties of neighbour tables, cell regions and the radial mesh (C30, C46, C49, C50)
-/

set_option linter.unusedSectionVars false

namespace Dt
open Dt.Topology
open Spec (HasFacet Manifold IsNeighbor IsTable)

/-! ### C30 -/

/-- Both tables can be computed, are equal, and give for every facet of every cell the other cell
with that facet, or -1 if there is none. -/
theorem C30_tables {T : Topo} {tdim : Nat} (hT : Manifold T (tdim + 1)) (junk junk' : Int) :
    ∃ tab, pyNeighbors T tdim junk = .ok tab ∧ cppNeighbors T (tdim + 1) junk' = .ok tab ∧
      IsTable T tab := by
  have hf : ∀ c ∈ T.cells, ∀ f ∈ c.2, HasFacet T c.1 f := fun c hc f hf => ⟨c.2, hc, hf⟩
  obtain ⟨tab, e, h⟩ := table_ok (T := T) (pyNeighbor T) junk T.cells hT.facets
    (fun c hc f hff => by
      obtain ⟨v, h1, _, h3⟩ := isNeighbor_of hT (hf c hc f hff)
      exact ⟨v, h1, h3⟩)
  refine ⟨tab, e, ?_, h⟩
  unfold cppNeighbors
  rw [table_congr (cppNeighbor T) (pyNeighbor T)]
  · obtain ⟨tab', e', h'⟩ := table_ok (T := T) (pyNeighbor T) junk' T.cells hT.facets
      (fun c hc f hff => by
        obtain ⟨v, h1, _, h3⟩ := isNeighbor_of hT (hf c hc f hff)
        exact ⟨v, h1, h3⟩)
    rw [e']
    -- entries are determined
    have huniq : ∀ c f v v', IsNeighbor T c f v → IsNeighbor T c f v' → HasFacet T c f → v = v' := by
      intro c f v v' h1 h2 hc
      have hnn : ∀ d, HasFacet T d f → 0 ≤ d := by
        rintro d ⟨fs, hd, _⟩; exact hT.nonneg _ hd
      rcases h1 with ⟨rfl, h1⟩ | ⟨h1, h1'⟩ <;> rcases h2 with ⟨rfl, h2⟩ | ⟨h2, h2'⟩
      · rfl
      · exact absurd (h1 _ h2') h2
      · exact absurd (h2 _ h1') h1
      · have m1 := (hT.attached v f).2 h1'
        have m2 := (hT.attached v' f).2 h2'
        rcases attached_cases hT hc with ha | ⟨d, hd, ha | ha⟩
        · rw [ha] at m1; simp at m1; exact absurd m1 h1
        · rw [ha] at m1 m2
          simp only [List.mem_cons, List.not_mem_nil, or_false] at m1 m2
          rcases m1 with rfl | rfl
          · exact absurd rfl h1
          · rcases m2 with rfl | rfl
            · exact absurd rfl h2
            · rfl
        · rw [ha] at m1 m2
          simp only [List.mem_cons, List.not_mem_nil, or_false] at m1 m2
          rcases m1 with rfl | rfl
          · rcases m2 with rfl | rfl
            · rfl
            · exact absurd rfl h2
          · exact absurd rfl h1
    congr 1
    have hall : ∀ c ∈ T.cells, ∀ f ∈ c.2, HasFacet T c.1 f := hf
    clear e e' hf
    generalize T.cells = cells at h h' hall
    induction h generalizing tab' with
    | nil => cases h'; rfl
    | @cons c r cells tab hd htl ih =>
      cases h' with
      | @cons _ r' _ tab' hd' htl' =>
        rw [ih tab' htl' (fun c hc => hall c (List.mem_cons_of_mem _ hc))]
        congr 1
        apply Prod.ext
        · rw [hd.1, hd'.1]
        · have k1 := hd.2
          have k2 := hd'.2
          have k3 := hall c (by simp)
          generalize c.2 = fs at k1 k2 k3
          generalize r.2 = vs at k1
          generalize r'.2 = vs' at k2
          clear ih htl htl' hd hd'
          induction k1 generalizing vs' with
          | nil => cases k2; rfl
          | @cons f v fs vs g1 g2 ihf =>
            cases k2 with
            | @cons _ v' _ vs' g1' g2' =>
              rw [huniq _ _ _ _ g1' g1 (k3 f (by simp)),
                ihf (fun f hf => k3 f (List.mem_cons_of_mem _ hf)) vs' g2']
  · intro c hc f hff
    obtain ⟨v, h1, h2, _⟩ := isNeighbor_of hT (hf c hc f hff)
    rw [h1, h2]

/-- Neighbours are mutual, across the same mesh facet. -/
theorem C30_mutual {T : Topo} {tdim : Nat} (hT : Manifold T (tdim + 1)) (junk : Int)
    {tab : List (Int × List Int)} (ht : pyNeighbors T tdim junk = .ok tab)
    {i k : Nat} {a b f : Int} {fs row : List Int}
    (hc : T.cells[i]? = some (a, fs)) (hr : tab[i]? = some (a, row)) (hf : fs[k]? = some f)
    (hb : row[k]? = some b) (hne : b ≠ -1) :
    ∃ (j k' : Nat) (fs' row' : List Int), T.cells[j]? = some (b, fs') ∧ tab[j]? = some (b, row') ∧
      fs'[k']? = some f ∧ row'[k']? = some a := by
  obtain ⟨tab', e, -, htab⟩ := C30_tables hT junk junk
  rw [ht] at e
  obtain rfl := Except.ok.inj e
  have hat : ∀ (i : Nat) (c r : Int × List Int), T.cells[i]? = some c → tab[i]? = some r →
      r.1 = c.1 ∧ List.Forall₂ (IsNeighbor T c.1) c.2 r.2 := by
    intro i c r h1 h2
    obtain ⟨hi, h1⟩ := List.getElem?_eq_some_iff.1 h1
    obtain ⟨hi', h2⟩ := List.getElem?_eq_some_iff.1 h2
    have := htab.get hi hi'
    simpa [h1, h2] using this
  have hrow := (hat i _ _ hc hr).2
  dsimp only at hrow
  have hnb : IsNeighbor T a f b := by
    obtain ⟨hk, h1⟩ := List.getElem?_eq_some_iff.1 hf
    obtain ⟨hk', h2⟩ := List.getElem?_eq_some_iff.1 hb
    have := hrow.get hk hk'
    simpa [h1, h2] using this
  rcases hnb with ⟨h1, _⟩ | ⟨h1, fs', h2, h3⟩
  · exact absurd h1 hne
  · obtain ⟨j, hj⟩ := List.mem_iff_getElem?.1 h2
    obtain ⟨k', hk'⟩ := List.mem_iff_getElem?.1 h3
    have hjl : j < T.cells.length := (List.getElem?_eq_some_iff.1 hj).1
    have hjt : j < tab.length := by rw [← htab.length_eq]; exact hjl
    obtain ⟨r1, r2⟩ := hat j _ tab[j] hj (List.getElem?_eq_getElem hjt)
    dsimp only at r1 r2
    have hkl : k' < fs'.length := (List.getElem?_eq_some_iff.1 hk').1
    have hkr : k' < tab[j].2.length := by rw [← r2.length_eq]; exact hkl
    have hnb' : IsNeighbor T b f (tab[j].2[k']) := by
      have := r2.get hkl hkr
      rw [List.getElem?_eq_some_iff] at hk'
      simpa [hk'.2] using this
    refine ⟨j, k', fs', tab[j].2, hj, ?_, hk', ?_⟩
    · rw [List.getElem?_eq_getElem hjt]
      congr 1
      exact Prod.ext r1 rfl
    · rw [List.getElem?_eq_getElem hkr]
      congr 1
      have haf : HasFacet T a f := ⟨fs, List.mem_of_getElem? hc, List.mem_of_getElem? hf⟩
      have hbf : HasFacet T b f := ⟨fs', h2, h3⟩
      rcases hnb' with ⟨_, h4⟩ | ⟨h4, h5⟩
      · exact absurd (h4 a haf).symm h1
      · have m1 := (hT.attached _ f).2 h5
        have m2 := (hT.attached _ f).2 haf
        rcases attached_cases hT hbf with ha | ⟨d, hd, ha | ha⟩
        · rw [ha] at m1; simp at m1; exact absurd m1 h4
        · rw [ha] at m1 m2
          simp only [List.mem_cons, List.not_mem_nil, or_false] at m1 m2
          rcases m1 with m1 | m1
          · exact absurd m1 h4
          · rcases m2 with m2 | m2
            · exact absurd m2.symm h1
            · rw [m1, m2]
        · rw [ha] at m1 m2
          simp only [List.mem_cons, List.not_mem_nil, or_false] at m1 m2
          rcases m1 with m1 | m1
          · rcases m2 with m2 | m2
            · rw [m1, m2]
            · exact absurd m2.symm h1
          · exact absurd m1 h4

/-- The topology of the interval mesh with `N` cells. -/
def lineTopo (N : Nat) : Topo where
  cells := (List.range N).map (fun i : Nat => ((i : Int), [(i : Int), (i : Int) + 1]))
  attached f := (if 1 ≤ f ∧ f ≤ N then [f - 1] else []) ++ (if 0 ≤ f ∧ f < N then [f] else [])

theorem lineTopo_manifold (N : Nat) : Manifold (lineTopo N) 2 := by
  have hfac : ∀ c f, HasFacet (lineTopo N) c f ↔ (0 ≤ c ∧ c < N) ∧ (f = c ∨ f = c + 1) := by
    intro c f
    simp only [HasFacet, lineTopo, List.mem_map, List.mem_range, Prod.mk.injEq]
    constructor
    · rintro ⟨fs, ⟨i, hi, rfl, rfl⟩, hf⟩
      simp at hf
      exact ⟨by omega, hf⟩
    · rintro ⟨⟨h0, h1⟩, hf⟩
      refine ⟨[c, c + 1], ⟨c.toNat, by omega, by omega, ?_⟩, by simpa using hf⟩
      rw [Int.toNat_of_nonneg h0]
  refine ⟨?_, ?_, ?_, ?_, ?_, ?_, ?_⟩
  · simp only [lineTopo, List.map_map, Function.comp_def]
    exact List.Nodup.map (fun a b h => by simpa using h) List.nodup_range
  · intro c hc; simp [lineTopo] at hc; obtain ⟨i, _, rfl⟩ := hc; simp
  · intro c hc; simp [lineTopo] at hc; obtain ⟨i, _, rfl⟩ := hc; simp
  · intro c hc; simp [lineTopo] at hc; obtain ⟨i, _, rfl⟩ := hc; simp
  · intro c f
    rw [hfac]
    simp only [lineTopo, List.mem_append]
    split <;> split <;> simp <;> omega
  · intro f
    simp only [lineTopo]
    split <;> split <;> simp
  · intro f
    simp only [lineTopo]
    split <;> split <;> simp

/-- On the interval mesh the computed table is the one used by the tracking model. -/
theorem C30_interval {K : Type} [Field K] (x : Nat → K) (N : Nat) (junk : Int) :
    pyNeighbors (lineTopo N) 1 junk =
      .ok ((List.range N).map (fun i : Nat => ((i : Int), (lineCell x N i).neighbors))) := by
  unfold pyNeighbors lineTopo
  dsimp only
  have hrow : ∀ i, i < N → fillRow (pyNeighbor (lineTopo N) i) [(i : Int), (i : Int) + 1] 0
      (List.replicate 2 junk) = .ok (lineCell x N i).neighbors := by
    intro i hi
    have h1 : pyNeighbor (lineTopo N) i i = .ok (if i = 0 then -1 else (i : Int) - 1) := by
      unfold pyNeighbor lineTopo
      dsimp only
      by_cases h0 : i = 0
      · subst h0
        have : (0 : Int) < N := by omega
        simp [this]
      · have e1 : 1 ≤ (i : Int) ∧ (i : Int) ≤ N := by omega
        have e2 : 0 ≤ (i : Int) ∧ (i : Int) < N := by omega
        rw [if_pos e1, if_pos e2, if_neg h0]
        have : (i : Int) - 1 ≠ i := by omega
        simp [pyGet, orIndexErr]
    have h2 : pyNeighbor (lineTopo N) i ((i : Int) + 1) =
        .ok (if i + 1 = N then -1 else (i : Int) + 1) := by
      unfold pyNeighbor lineTopo
      dsimp only
      have e1 : 1 ≤ (i : Int) + 1 ∧ (i : Int) + 1 ≤ N := by omega
      rw [if_pos e1]
      by_cases hN : i + 1 = N
      · have : ¬ (0 ≤ (i : Int) + 1 ∧ (i : Int) + 1 < N) := by omega
        rw [if_neg this, if_pos hN]
        simp
      · have : (0 ≤ (i : Int) + 1 ∧ (i : Int) + 1 < N) := by omega
        rw [if_pos this, if_neg hN]
        simp [pyGet, orIndexErr]
    exact fillRow_ok _ [(i : Int), (i : Int) + 1] _ [] junk (.cons h1 (.cons h2 .nil))
  have : ∀ l : List Nat, (∀ i ∈ l, i < N) →
      table (pyNeighbor (lineTopo N)) (1 + 1) junk
        (l.map (fun i : Nat => ((i : Int), [(i : Int), (i : Int) + 1]))) =
      .ok (l.map (fun i : Nat => ((i : Int), (lineCell x N i).neighbors))) := by
    intro l hl
    induction l with
    | nil => rfl
    | cons i l ih =>
      have := hrow i (hl i (by simp))
      simp only [List.map_cons, table, this, ih (fun i hi => hl i (List.mem_cons_of_mem _ hi)),
        bind, Except.bind, pure, Except.pure]
  exact this _ (fun i hi => List.mem_range.1 hi)

/-- A facet with three cells: the Python table picks the first other cell, the C++ constructor
stops. -/
example : pyNeighbor ⟨[], fun _ => [4, 5, 6]⟩ 5 0 = .ok 4 ∧
    cppNeighbor ⟨[], fun _ => [4, 5, 6]⟩ 5 0 = .error .assertion := by decide

/-! ### C46 -/

section
variable {K : Type} [Field K] [LinearOrder K]

/-- Inside the box, up to the tolerance, in the first `gdim` coordinates. -/
def InBox (gdim : Nat) (pmin pmax x : Fin 3 → K) : Prop :=
  ∀ i : Fin 3, i.val < gdim → pmin i - tol ≤ x i ∧ x i ≤ pmax i + tol

theorem rectInside_iff {gdim : Nat} (hg : 1 ≤ gdim ∧ gdim ≤ 3) (pmin pmax x : Fin 3 → K) :
    rectInside gdim pmin pmax x = true ↔ InBox gdim pmin pmax x := by
  obtain ⟨h1, h3⟩ := hg
  have : gdim = 1 ∨ gdim = 2 ∨ gdim = 3 := by omega
  rcases this with rfl | rfl | rfl
  · simp only [rectInside, Bool.and_eq_true, decide_eq_true_eq, InBox, ge_iff_le]
    constructor
    · rintro h i hi
      have : i = 0 := by apply Fin.ext; simp; omega
      subst this; exact h
    · intro h; exact h 0 (by decide)
  · simp only [rectInside, Bool.and_eq_true, decide_eq_true_eq, InBox, ge_iff_le]
    constructor
    · rintro ⟨⟨⟨h, h'⟩, k⟩, k'⟩ i hi
      have : i = 0 ∨ i = 1 := by
        rcases i with ⟨i, hi'⟩
        simp only at hi
        have : i = 0 ∨ i = 1 := by omega
        rcases this with rfl | rfl
        · left; rfl
        · right; rfl
      rcases this with rfl | rfl
      · exact ⟨h, h'⟩
      · exact ⟨k, k'⟩
    · intro h
      exact ⟨⟨h 0 (by decide), (h 1 (by decide)).1⟩, (h 1 (by decide)).2⟩
  · simp only [rectInside, Bool.and_eq_true, decide_eq_true_eq, InBox, ge_iff_le]
    constructor
    · rintro ⟨⟨⟨⟨⟨h, h'⟩, k⟩, k'⟩, m⟩, m'⟩ i hi
      rcases i with ⟨i, hi'⟩
      have : i = 0 ∨ i = 1 ∨ i = 2 := by omega
      rcases this with rfl | rfl | rfl
      · exact ⟨h, h'⟩
      · exact ⟨k, k'⟩
      · exact ⟨m, m'⟩
    · intro h
      exact ⟨⟨⟨⟨h 0 (by decide), (h 1 (by decide)).1⟩, (h 1 (by decide)).2⟩,
        (h 2 (by decide)).1⟩, (h 2 (by decide)).2⟩

/-- What a cell set must be: the mesh cells with property `P`, in mesh order, each once, with their
data. -/
structure IsCellSet (gdim : Nat) (vol : Int → Option K) (P : DCell K → Prop) (mesh : List (DCell K))
    (S : CellSet K) : Prop where
  sub : S.cells.Sublist mesh
  mem : ∀ c, c ∈ S.cells ↔ c ∈ mesh ∧ P c
  index : S.index = S.cells.map DCell.index
  volume : S.volume.map some = S.cells.map (fun c => vol c.index)
  midpoint : List.Forall₂ (fun c m => m.length = gdim ∧
    ∀ (i : Nat) (h : i < 3), i < gdim → m[i]? = some (c.midpoint ⟨i, h⟩)) S.cells S.midpoint
  radius : S.radius = S.cells.map DCell.circumradius

theorem cellSet_ok {gdim : Nat} (hg : gdim ≤ 3) (vol : Int → Option K)
    (inside : Option ((Fin 3 → K) → Bool)) (mesh : List (DCell K))
    (hvol : ∀ c ∈ mesh, (vol c.index).isSome) :
    let P := fun c : DCell K => ∀ f, inside = some f → f c.midpoint = true
    (∃ c ∈ mesh, P c) → ∃ S, cellSet gdim vol inside mesh = .ok S ∧ IsCellSet gdim vol P mesh S := by
  intro P hex
  unfold cellSet
  dsimp only
  have hcells : ∃ cells, chooseCells inside mesh = cells ∧ cells.Sublist mesh ∧ ∀ c, c ∈ cells ↔ c ∈ mesh ∧ P c := by
    cases inside with
    | none => exact ⟨mesh, rfl, List.Sublist.refl _, fun c => by simp [P]⟩
    | some f => exact ⟨_, rfl, List.filter_sublist, fun c => by simp [chooseCells, P]⟩
  obtain ⟨cells, e, hsub, hmem⟩ := hcells
  rw [e]
  have hne : cells.length ≠ 0 := by
    obtain ⟨c, hc, hP⟩ := hex
    have := (hmem c).2 ⟨hc, hP⟩
    intro h0
    rw [List.length_eq_zero_iff.1 h0] at this; simp at this
  rw [if_neg hne]
  have hv : ∃ vs, cells.mapM (volumeOf vol) = .ok vs ∧ vs.map some = cells.map (fun c => vol c.index) := by
    have hall : ∀ c ∈ cells, (vol c.index).isSome := fun c hc => hvol c ((hmem c).1 hc).1
    clear hne e hsub hmem
    induction cells with
    | nil => exact ⟨[], rfl, rfl⟩
    | cons c cells ih =>
      obtain ⟨vs, e, h⟩ := ih (fun c hc => hall c (List.mem_cons_of_mem _ hc))
      obtain ⟨v, hv⟩ := Option.isSome_iff_exists.1 (hall c (by simp))
      refine ⟨v :: vs, ?_, by simp [h, hv]⟩
      rw [List.mapM_cons, e]
      simp only [volumeOf, hv, bind, Except.bind, pure, Except.pure]
  obtain ⟨vs, e2, hvs⟩ := hv
  rw [e2]
  refine ⟨_, rfl, hsub, hmem, rfl, hvs, ?_, rfl⟩
  simp only
  clear hne e hsub hmem e2 hvs
  induction cells with
  | nil => exact .nil
  | cons c cells ih =>
    rw [List.map_cons]
    refine .cons ⟨by simp; omega, ?_⟩ ih
    intro i h hi
    rw [List.getElem?_map, List.getElem?_take, if_pos hi, List.getElem?_eq_getElem (by simpa using h)]
    simp

theorem cellSet_empty (gdim : Nat) (vol : Int → Option K) (f : (Fin 3 → K) → Bool)
    (mesh : List (DCell K)) (h : ∀ c ∈ mesh, f c.midpoint = false) :
    cellSet gdim vol (some f) mesh = .error .runtime := by
  unfold cellSet
  have : mesh.filter (fun c => f c.midpoint) = [] := by
    rw [List.filter_eq_nil_iff]; intro c hc; simp [h c hc]
  simp [chooseCells, this]

/-- A rectangular region selects exactly the cells with midpoint in the box, in mesh order, each
once, with their index, volume, midpoint and radius; it fails exactly if there is none. -/
theorem C46_rectangular {gdim : Nat} (hg : 1 ≤ gdim ∧ gdim ≤ 3) (vol : Int → Option K)
    (pmin pmax : Fin 3 → K) (mesh : List (DCell K)) (hvol : ∀ c ∈ mesh, (vol c.index).isSome) :
    ((∃ c ∈ mesh, InBox gdim pmin pmax c.midpoint) → ∃ S, rectRegion gdim vol pmin pmax mesh = .ok S ∧
      IsCellSet gdim vol (fun c => InBox gdim pmin pmax c.midpoint) mesh S) ∧
    ((¬ ∃ c ∈ mesh, InBox gdim pmin pmax c.midpoint) →
      rectRegion gdim vol pmin pmax mesh = .error .runtime) := by
  constructor
  · rintro ⟨c, hc, hb⟩
    have := cellSet_ok hg.2 vol (some (rectInside gdim pmin pmax)) mesh hvol
      ⟨c, hc, by rintro f hf; cases hf; exact (rectInside_iff hg _ _ _).2 hb⟩
    obtain ⟨S, e, h⟩ := this
    refine ⟨S, e, h.sub, ?_, h.index, h.volume, h.midpoint, h.radius⟩
    intro c
    rw [h.mem]
    constructor
    · exact fun ⟨h1, h2⟩ => ⟨h1, (rectInside_iff hg _ _ _).1 (h2 _ rfl)⟩
    · exact fun ⟨h1, h2⟩ => ⟨h1, by rintro f hf; cases hf; exact (rectInside_iff hg _ _ _).2 h2⟩
  · intro hne
    apply cellSet_empty
    intro c hc
    rw [Bool.eq_false_iff]
    intro hh
    exact hne ⟨c, hc, (rectInside_iff hg _ _ _).1 hh⟩

/-- The whole mesh. -/
theorem C46_whole_mesh {gdim : Nat} (hg : gdim ≤ 3) (vol : Int → Option K) (mesh : List (DCell K))
    (hvol : ∀ c ∈ mesh, (vol c.index).isSome) (hne : mesh ≠ []) :
    ∃ S, wholeMesh gdim vol mesh = .ok S ∧ IsCellSet gdim vol (fun _ => True) mesh S ∧
      S.cells = mesh := by
  obtain ⟨c, hc⟩ := List.exists_mem_of_ne_nil mesh hne
  obtain ⟨S, e, h⟩ := cellSet_ok hg vol none mesh hvol ⟨c, hc, by simp⟩
  refine ⟨S, e, ⟨h.sub, fun c => by simpa using h.mem c, h.index, h.volume, h.midpoint, h.radius⟩, ?_⟩
  unfold cellSet at e
  simp only [bind, Except.bind, pure, Except.pure] at e
  split at e
  · cases e
  · split at e
    · cases e
    · simp only [Except.ok.injEq] at e; rw [← e]; rfl

/-- A spherical region selects the cells whose midpoint is in the ball, in one dimension, up to the
tolerance. Missing: two and three dimensions, see `C46_false_sphere`. -/
theorem C46_spherical_1D_partial [IsStrictOrderedRing K] (vol : Int → Option K) (center radius : K)
    (mesh : List (DCell K))
    (hvol : ∀ c ∈ mesh, (vol c.index).isSome)
    (hex : ∃ c ∈ mesh, |c.midpoint 0 - center| ≤ radius + tol) :
    ∃ S, sphereRegion 1 vol center radius mesh = .ok S ∧
      IsCellSet 1 vol (fun c => |c.midpoint 0 - center| ≤ radius + tol) mesh S := by
  have hiff : ∀ x : Fin 3 → K, sphereInside center radius x = true ↔
      |x 0 - center| ≤ radius + tol := by
    intro x
    simp only [sphereInside, Bool.and_eq_true, decide_eq_true_eq, ge_iff_le, abs_le]
    constructor
    · rintro ⟨h1, h2⟩; exact ⟨by linarith, by linarith⟩
    · rintro ⟨h1, h2⟩; exact ⟨by linarith, by linarith⟩
  obtain ⟨c, hc, hb⟩ := hex
  obtain ⟨S, e, h⟩ := cellSet_ok (gdim := 1) (by decide) vol (some (sphereInside center radius)) mesh hvol
    ⟨c, hc, by rintro f hf; cases hf; exact (hiff _).2 hb⟩
  refine ⟨S, e, h.sub, ?_, h.index, h.volume, h.midpoint, h.radius⟩
  intro c
  rw [h.mem]
  constructor
  · exact fun ⟨h1, h2⟩ => ⟨h1, (hiff _).1 (h2 _ rfl)⟩
  · exact fun ⟨h1, h2⟩ => ⟨h1, by rintro f hf; cases hf; exact (hiff _).2 h2⟩

end

def demoMesh : List (DCell ℚ) := [⟨0, ![0, 0, 0], 1⟩, ⟨1, ![0, 5, 0], 1⟩, ⟨2, ![5, 0, 0], 1⟩]

/-- In two dimensions a cell at distance 5 from the centre is selected for a sphere of radius 1;
and the attribute `radius` of the region is no longer the radius. -/
theorem C46_false_sphere :
    (sphereRegion 2 (fun _ => some 1) (0 : ℚ) 1 demoMesh).map (fun S => (S.index, S.radius)) =
      .ok ([0, 1], [1, 1]) ∧ (∃ c ∈ demoMesh, c.index = 1 ∧ c.midpoint 1 = 5) := by
  constructor
  · decide +kernel
  · exact ⟨⟨1, ![0, 5, 0], 1⟩, by simp [demoMesh], rfl, rfl⟩

example : (rectRegion 2 (fun _ => some 1) ![0, 0, 0] ![1, 6, 0] demoMesh).map (fun S => S.index) =
    .ok [0, 1] := by decide +kernel

/-! ### C49 -/

section
open Radial
variable {K : Type} [Field K] [LinearOrder K] [IsStrictOrderedRing K]

/-- A power function suitable for the mesh map. -/
structure PowLike (pw : K → K) : Prop where
  zero : pw 0 = 0
  one : pw 1 = 1
  mono : ∀ x y, 0 ≤ x → x < y → y ≤ 1 → pw x < pw y

/-- Natural exponents. -/
theorem powLike_nat {s : Nat} (hs : s ≠ 0) : PowLike (fun x : K => x ^ s) :=
  ⟨by simp [hs], by simp, fun x y hx hxy _ => pow_lt_pow_left₀ hxy hx hs⟩

/-- Positive real exponents. -/
theorem powLike_real {s : ℝ} (hs : 0 < s) : PowLike (fun x : ℝ => x ^ s) :=
  ⟨Real.zero_rpow (by linarith), Real.one_rpow _, fun _ _ hx hxy _ => Real.rpow_lt_rpow hx hxy hs⟩

/-- The radial mesh starts at `rmin`, ends at `rmax`, and its vertices increase; so it is a
conforming mesh once the end points are marked. -/
theorem C49_radial_mesh {pw : K → K} (hp : PowLike pw) {rmin rmax : K} (hr : rmin < rmax) {nr : Nat}
    (hn : 0 < nr) :
    vertex rmin rmax pw nr 0 = rmin ∧ vertex rmin rmax pw nr nr = rmax ∧
    (∀ i, i < nr → vertex rmin rmax pw nr i < vertex rmin rmax pw nr (i + 1)) ∧
    ∀ marker : Int → Int, marker 0 ≠ 0 → marker nr ≠ 0 →
      (lineMesh (vertex rmin rmax pw nr) nr marker).Conforming := by
  have hn' : (0 : K) < nr := by exact_mod_cast hn
  have hmono : ∀ i, i < nr → vertex rmin rmax pw nr i < vertex rmin rmax pw nr (i + 1) := by
    intro i hi
    unfold vertex mapCoordinate unitVertex
    have h1 : ((i : K)) / nr < ((i + 1 : Nat) : K) / nr := by
      apply div_lt_div_of_pos_right _ hn'
      exact_mod_cast Nat.lt_succ_self i
    have h2 : ((i + 1 : Nat) : K) / nr ≤ 1 := by
      rw [div_le_one hn']; exact_mod_cast hi
    have h3 : (0 : K) ≤ (i : K) / nr := by positivity
    have := hp.mono _ _ h3 h1 h2
    have hd : 0 < rmax - rmin := by linarith
    nlinarith [mul_lt_mul_of_pos_left this hd]
  refine ⟨?_, ?_, hmono, ?_⟩
  · simp [vertex, mapCoordinate, unitVertex, hp.zero]
  · simp [vertex, mapCoordinate, unitVertex, div_self hn'.ne', hp.one]
  · intro marker h0 hN
    exact lineMesh_conforming hmono h0 hN

/-- Every vertex stays between `rmin` and `rmax`. -/
theorem C49_in_range {pw : K → K} (hp : PowLike pw) {rmin rmax : K} (hr : rmin < rmax) {nr : Nat}
    (hn : 0 < nr) (i : Nat) (hi : i ≤ nr) :
    rmin ≤ vertex rmin rmax pw nr i ∧ vertex rmin rmax pw nr i ≤ rmax := by
  obtain ⟨h0, hN, hm, -⟩ := C49_radial_mesh hp hr hn
  have hup : ∀ i j, i ≤ j → j ≤ nr → vertex rmin rmax pw nr i ≤ vertex rmin rmax pw nr j := by
    intro i j hij
    induction j, hij using Nat.le_induction with
    | base => intro _; exact le_refl _
    | succ j hij ih => intro hj; exact (ih (by omega)).trans (hm j (by omega)).le
  refine ⟨?_, ?_⟩
  · have := hup 0 i (by omega) hi; rwa [h0] at this
  · have := hup i nr hi (le_refl _); rwa [hN] at this

example : PowLike (fun x : ℚ => x ^ 2) ∧
    (List.range 4).map (vertex (1 : ℚ) 10 (fun x => x ^ 2) 3) = [1, 2, 5, 10] :=
  ⟨powLike_nat (by decide), by decide +kernel⟩

/-! ### C50 -/

/-- On a mesh of increasing vertices every cell of the spherical mesh has a positive volume and the
volumes add up to the volume between the first and the last vertex. -/
theorem C50_volumes {pi : K} (hpi : 0 < pi) (x : Nat → K) (n : Nat)
    (hx : ∀ i, i < n → x i < x (i + 1)) :
    ∃ vs, cellVolumes "1D-spherical-radial" pi x n = .ok vs ∧ vs.length = n ∧ (∀ v ∈ vs, 0 < v) ∧
      vs.sum = 4 / 3 * pi * (x n ^ 3 - x 0 ^ 3) := by
  refine ⟨(List.range n).map (fun i => 4 / 3 * pi * (x (i + 1) * x (i + 1) * x (i + 1) -
    x i * x i * x i)), ?_, by simp, ?_, ?_⟩
  · unfold cellVolumes
    generalize List.range n = l
    induction l with
    | nil => rfl
    | cons i l ih =>
      rw [List.mapM_cons, ih]
      simp [cellVolume, bind, Except.bind, pure, Except.pure]
  · intro v hv
    obtain ⟨i, hi, rfl⟩ := List.mem_map.1 hv
    have h1 := hx i (List.mem_range.1 hi)
    have h2 : 0 < x (i + 1) * x (i + 1) * x (i + 1) - x i * x i * x i := by
      have : x (i + 1) * x (i + 1) * x (i + 1) - x i * x i * x i =
        (x (i + 1) - x i) * ((x (i + 1) + x i / 2) ^ 2 + 3 / 4 * x i ^ 2) := by ring
      rw [this]
      apply mul_pos (by linarith)
      by_cases h0 : x i = 0
      · rw [h0] at h1 ⊢
        have : 0 < x (i + 1) ^ 2 := by positivity
        linarith [this]
      · have : 0 < x i ^ 2 := by positivity
        nlinarith [sq_nonneg (x (i + 1) + x i / 2)]
    positivity
  · clear hx
    induction n with
    | zero => simp
    | succ n ih =>
      rw [List.range_succ, List.map_append, List.sum_append, ih]
      simp only [List.map_cons, List.map_nil, List.sum_cons, List.sum_nil]
      ring

/-- Any other coordinate system is refused. -/
theorem C50_unknown_system (cs : String) (h1 : cs ≠ "Cartesian") (h2 : cs ≠ "1D-spherical-radial")
    (pi : K) (x : Nat → K) (n : Nat) (hn : 0 < n) : cellVolumes cs pi x n = .error .value := by
  obtain ⟨m, rfl⟩ : ∃ m, n = m + 1 := ⟨n - 1, by omega⟩
  unfold cellVolumes
  rw [List.range_succ_eq_map, List.mapM_cons]
  simp [cellVolume, h1, h2, bind, Except.bind]

example : (cellVolumes "1D-spherical-radial" (3 : ℚ) (fun i => i) 3) = .ok [4, 28, 76] := by
  decide +kernel

end
end Dt
