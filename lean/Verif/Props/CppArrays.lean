import Verif.Model.CppArrays
import Verif.Props.Plasma
import Verif.Props.CppTrack
import Verif.Props.Cross

/-!
# The compiled code and the Python code are given the same mesh (C107)
-/

set_option linter.unusedSectionVars false

namespace Dt
open Dt.Topology Spec
variable {K : Type} {g p : Nat} {τ ρ : Type}

/-! ### Arrays with one row per cell -/

theorem cSet_of {β : Type} {xs : List β} {i : Int} (h0 : 0 ≤ i) (h : i.toNat < xs.length) (v : β) :
    cSet xs i v = .ok (xs.set i.toNat v) := by
  unfold cSet
  rw [if_pos h0, if_pos h]

theorem cGet_at {β : Type} {xs : List β} {i : Int} (h0 : 0 ≤ i) (h : i.toNat < xs.length) :
    cGet xs i = .ok xs[i.toNat] := by
  unfold cGet
  rw [if_pos h0, List.getElem?_eq_getElem h]

theorem fillArray_ok {β : Type} {row : DSimplex K → β → Except Err β} {P : β → Prop} {val : DSimplex K → β}
    (cs : List (DSimplex K)) (hrow : ∀ c ∈ cs, ∀ b, P b → row c b = .ok (val c) ∧ P (val c))
    (hnd : (cs.map (·.index)).Nodup) : ∀ (arr : List β), (∀ b ∈ arr, P b) →
    (∀ c ∈ cs, 0 ≤ c.index ∧ c.index.toNat < arr.length) →
    ∃ arr', fillArray row cs arr = .ok arr' ∧ arr'.length = arr.length ∧
      (∀ c ∈ cs, arr'[c.index.toNat]? = some (val c)) ∧
      ∀ i, (∀ c ∈ cs, c.index.toNat ≠ i) → arr'[i]? = arr[i]? := by
  induction cs with
  | nil => intro arr _ _; exact ⟨arr, rfl, rfl, by simp, fun _ _ => rfl⟩
  | cons c cs ih =>
    intro arr hP hin
    obtain ⟨h0, h1⟩ := hin c (by simp)
    obtain ⟨e, hv⟩ := hrow c (by simp) _ (hP _ (List.getElem_mem h1))
    rw [List.map_cons, List.nodup_cons] at hnd
    have hP' : ∀ b ∈ arr.set c.index.toNat (val c), P b := by
      intro b hb
      rcases List.mem_or_eq_of_mem_set hb with h | h
      · exact hP _ h
      · rw [h]; exact hv
    obtain ⟨arr', e', hl, hs, ho⟩ := ih (fun c hc => hrow c (by simp [hc])) hnd.2 _ hP'
      (fun d hd => by rw [List.length_set]; exact hin d (by simp [hd]))
    have hne : ∀ d ∈ cs, d.index.toNat ≠ c.index.toNat := by
      intro d hd he
      have hd0 := (hin d (by simp [hd])).1
      exact hnd.1 (List.mem_map.2 ⟨d, hd, by omega⟩)
    refine ⟨arr', ?_, by rw [hl, List.length_set], ?_, ?_⟩
    · simp only [fillArray, bind, Except.bind]
      rw [cGet_at h0 h1]
      dsimp only
      rw [e]
      dsimp only
      rw [cSet_of h0 h1]
      exact e'
    · intro d hd
      rcases List.mem_cons.1 hd with rfl | hd
      · rw [ho _ hne, List.getElem?_set_self h1]
      · exact hs d hd
    · intro i hi
      rw [ho i (fun d hd => hi d (by simp [hd])), List.getElem?_set_ne (hi c (by simp))]

theorem fillRow_any (value : Int → Except Err Int) : ∀ (fs vs pre row : List Int),
    List.Forall₂ (fun f v => value f = .ok v) fs vs → row.length = fs.length →
    fillRow value fs pre.length (pre ++ row) = .ok (pre ++ vs) := by
  intro fs
  induction fs with
  | nil =>
    intro vs pre row h hl
    cases h
    rw [List.length_eq_zero_iff.1 hl]
    rfl
  | cons f fs ih =>
    intro vs pre row h hl
    cases h with
    | @cons _ v _ vs hd htl =>
      match row, hl with
      | r :: row, hl =>
        simp only [fillRow, hd, bind, Except.bind]
        rw [pySet_of_lt _ (by simp)]
        dsimp only
        have h1 : (pre ++ r :: row).set pre.length v = (pre ++ [v]) ++ row := by
          rw [List.set_append_right _ _ (le_refl _), Nat.sub_self, List.set_cons_zero]
          simp
        rw [h1]
        have := ih vs (pre ++ [v]) row htl (by simpa using hl)
        rw [List.length_append, List.length_singleton] at this
        rw [this]
        simp

/-- Right entries are determined. -/
theorem isNeighbor_unique {T : Topo} {n : Nat} (hT : Manifold T n) {c f v v' : Int} (hc : HasFacet T c f)
    (h1 : IsNeighbor T c f v) (h2 : IsNeighbor T c f v') : v = v' := by
  rcases h1 with ⟨rfl, h1⟩ | ⟨h1, h1'⟩ <;> rcases h2 with ⟨rfl, h2⟩ | ⟨h2, h2'⟩
  · rfl
  · exact absurd (h1 _ h2') h2
  · exact absurd (h2 _ h1') h1
  · have m0 := (hT.attached c f).2 hc
    have m1 := (hT.attached v f).2 h1'
    have m2 := (hT.attached v' f).2 h2'
    have h3 := hT.two f
    by_contra hne
    have : ([c, v, v'] : List Int).Nodup := by
      simp only [List.nodup_cons, List.mem_cons, List.not_mem_nil, or_false, not_or, not_false_eq_true,
        List.nodup_nil, and_true]
      exact ⟨⟨fun h => h1 h.symm, fun h => h2 h.symm⟩, hne⟩
    have hsub : [c, v, v'] ⊆ T.attached f := by
      intro x hx
      simp only [List.mem_cons, List.not_mem_nil, or_false] at hx
      rcases hx with rfl | rfl | rfl <;> assumption
    have := (List.subperm_of_subset this hsub).length_le
    simp at this
    omega

section
variable [Field K] [LinearOrder K] [IsStrictOrderedRing K] {hg : g ≤ 3} {D : DMesh K g}

/-- Cells are numbered from 0 on and refer to vertices that exist. -/
def Spec.Numbered (D : DMesh K g) (nVerts : Nat) : Prop :=
  (∀ c ∈ D.cells, c.index < D.cells.length) ∧ ∀ c ∈ D.cells, ∀ v ∈ c.verts, v < nVerts

/-- C107.  For every triangulation both can be made, the dictionaries of the Python code and the arrays
of the compiled code, and they describe the same mesh: same cells, facets, neighbours, markers, vertices
and normals. -/
theorem C107_same_mesh (hD : Triangulation hg D) {nVerts : Nat} (hn : Numbered D nVerts) (junk : Int)
    (marker : Int → Int) :
    ∃ M cm, buildMesh hg D junk marker = .ok M ∧ buildCpp D nVerts marker = .ok cm ∧ cm.Twin M := by
  obtain ⟨M, e, hmk, hinv, hex⟩ := build_ok (hg := hg) hD.manifold junk marker
  have hk := hD.manifold.nodup
  rw [topo_keys] at hk
  have k1 : ((cellDict D).map (·.1)).Nodup := by
    simpa [cellDict, List.map_map, Function.comp_def] using hk
  have hpos : ∀ c ∈ D.cells, 0 ≤ c.index := fun c hc =>
    hD.manifold.nonneg (c.index, c.facets) (List.mem_map.2 ⟨c, hc, rfl⟩)
  have hfl : ∀ c ∈ D.cells, c.facets.length = g + 1 := fun c hc =>
    hD.manifold.facets (c.index, c.facets) (List.mem_map.2 ⟨c, hc, rfl⟩)
  have hrow : ∀ c ∈ D.cells, ∃ vs, List.Forall₂ (fun f v => cppNeighbor D.topo c.index f = .ok v) c.facets vs ∧
      List.Forall₂ (IsNeighbor D.topo c.index) c.facets vs := by
    intro c hc
    have : ∀ f ∈ c.facets, ∃ v, cppNeighbor D.topo c.index f = .ok v ∧ IsNeighbor D.topo c.index f v := by
      intro f hf
      obtain ⟨v, -, h2, h3⟩ := isNeighbor_of hD.manifold (c := c.index) (f := f) ⟨c.facets, List.mem_map.2 ⟨c, hc, rfl⟩, hf⟩
      exact ⟨v, h2, h3⟩
    generalize c.facets = fs at this ⊢
    induction fs with
    | nil => exact ⟨[], .nil, .nil⟩
    | cons f fs ih =>
      obtain ⟨v, h1, h2⟩ := this f (by simp)
      obtain ⟨vs, h3, h4⟩ := ih (fun f hf => this f (by simp [hf]))
      exact ⟨v :: vs, .cons h1 h3, .cons h2 h4⟩
  choose! vs hvs1 hvs2 using hrow
  obtain ⟨nbs, e1, -, hnb, -⟩ := fillArray_ok (P := fun r : List Int => r.length = g + 1) (val := vs)
    (row := fun c row => fillRow (cppNeighbor D.topo c.index) c.facets 0 row) D.cells
    (fun c hc b hb => by
      refine ⟨?_, by rw [← (hvs1 c hc).length_eq, hfl c hc]⟩
      have := fillRow_any (cppNeighbor D.topo c.index) c.facets (vs c) [] b (hvs1 c hc) (by rw [hb, hfl c hc])
      simpa using this) hk (List.replicate D.cells.length (List.replicate (g + 1) 0))
    (fun b hb => by rw [(List.mem_replicate.1 hb).2, List.length_replicate])
    (fun c hc => ⟨hpos c hc, by rw [List.length_replicate]; have := hn.1 c hc; have := hpos c hc; omega⟩)
  obtain ⟨ns, e2, -, hns, -⟩ := fillArray_ok (P := fun _ : List K => True) (val := fun c => cppNormalTable c.normal (g + 1))
    (row := fun c _ => .ok (cppNormalTable c.normal (g + 1))) D.cells (fun c hc b hb => ⟨rfl, trivial⟩) hk
    (List.replicate D.cells.length (List.replicate (3 * (g + 1)) 0)) (fun _ _ => trivial)
    (fun c hc => ⟨hpos c hc, by rw [List.length_replicate]; have := hn.1 c hc; have := hpos c hc; omega⟩)
  refine ⟨M, _, e, by unfold buildCpp neighborsArray normalsArray; rw [e1, e2]; rfl, ?_, ?_, hmk.symm⟩
  · intro ci C hC
    obtain ⟨c, hc, rfl, row, hr, rfl⟩ := hinv ci C hC
    refine ⟨made_regular hD hc hr.length_eq.symm,
      ⟨c.verts, c.facets, vs c, ⟨cppNormalTable c.normal (g + 1), vertexTable (c.verts.map D.coord)⟩⟩, ?_, ?_⟩
    · dsimp only
      rw [(dictGet_iff k1 _ _).2 (List.mem_map.2 ⟨c, hc, rfl⟩), hnb c hc, hns c hc]
      rfl
    · have hrv : vs c = row := by
        have : ∀ f ∈ c.facets, HasFacet D.topo c.index f := fun f hf => ⟨c.facets, List.mem_map.2 ⟨c, hc, rfl⟩, hf⟩
        have h1 := hvs2 c hc
        generalize vs c = ws at h1
        clear * - h1 hr this hD
        generalize c.facets = fs at this h1 hr
        induction h1 generalizing row with
        | nil => cases hr; rfl
        | cons hd _ ih =>
          cases hr with
          | cons hd' tl' =>
            rw [isNeighbor_unique hD.manifold (this _ (by simp)) hd hd', ih _ (fun f hf => this f (by simp [hf])) tl']
      refine ⟨twin_of_tables hg c.normal (g + 1) (made hg D c row) rfl, ?_, rfl, hrv⟩
      intro j x hx
      simp only [made, List.getElem?_map, Option.map_eq_some_iff] at hx
      obtain ⟨v, hv, rfl⟩ := hx
      refine ⟨v, hv, fun i => ?_⟩
      unfold flatCoords
      dsimp only
      rw [flatMap_get (m := g) _ (fun _ => List.length_ofFn) _ _ _ i.2,
        List.getElem?_range (hn.2 c hc v (List.mem_of_getElem? hv))]
      simp
  · intro ci hC
    dsimp only
    cases h1 : dictGet (cellDict D) ci with
    | none => rfl
    | some c =>
      obtain ⟨c', hc', he⟩ := List.mem_map.1 ((dictGet_iff k1 _ _).1 h1)
      simp only [Prod.mk.injEq] at he
      obtain ⟨rfl, rfl⟩ := he
      obtain ⟨row, hr⟩ := hex c' hc'
      rw [hC] at hr
      cases hr

end

/-- C107 (one particle).  On every triangulation the compiled code moves a charged particle exactly like
the Python code, whatever the callbacks do and whatever the scratch array holds. -/
theorem C107_mover [Field K] [LinearOrder K] [IsStrictOrderedRing K] {hg : g ≤ 3} {D : DMesh K g}
    (hD : Triangulation hg D) {nVerts : Nat} (hn : Numbered D nVerts) (junk : Int) (marker : Int → Int) :
    ∃ M cm, buildMesh hg D junk marker = .ok M ∧ buildCpp D nVerts marker = .ok cm ∧
      ∀ (h : g ≤ p) {L : Layout K p}, L.Right →
      ∀ {bcC bcP : Int → τ → BCall K g p ρ → Except Err (τ × Part K p ρ)}, (∀ v st c, SameOk (bcC v st c) (bcP v st c)) →
      ∀ (n : Nat) (time dt qmdt : K) (E : Part K p ρ → Option (Vec K p)) (st : τ × Vec K p) (sc : Scratch K)
        (q : Part K p ρ) (st' : τ × Vec K p) (q' : Part K p ρ) (evs : List (Part K p ρ × K)),
      (∃ sc', cppMoveCharged h L cm bcC n time dt qmdt E (st, sc) q = .ok ((st', sc'), q', evs)) ↔
        moveCharged h M .charged bcP n time dt qmdt false E st q = .ok (st', q', evs) := by
  obtain ⟨M, cm, e1, e2, ht⟩ := C107_same_mesh hD hn junk marker
  exact ⟨M, cm, e1, e2, fun h _ hL _ _ hbc n time dt qmdt E st sc q st' q' evs =>
    C66_charged_particle ht h hL hbc n time dt qmdt E st sc q st' q' evs⟩

/-! ### The meshes of this project are numbered like that -/

theorem length_flatMap_const {α β : Type} {f : α → List β} {n : Nat} (h : ∀ a, (f a).length = n) (l : List α) :
    (l.flatMap f).length = n * l.length := by
  induction l with
  | nil => simp
  | cons a l ih => rw [List.flatMap_cons, List.length_append, ih, h, List.length_cons]; ring

theorem box_row {nx ny m : Nat} (hm : m < nx * ny) : m % nx < nx ∧ m / nx < ny ∧ m / nx * nx + m % nx = m := by
  have hx : 0 < nx := Nat.pos_of_ne_zero (by rintro rfl; simp at hm)
  refine ⟨Nat.mod_lt _ hx, ?_, ?_⟩
  · rw [Nat.div_lt_iff_lt_mul hx, Nat.mul_comm]; exact hm
  · rw [Nat.mul_comm]; exact Nat.div_add_mod m nx

theorem grid_vert {nx ny i j : Nat} (hi : i ≤ nx) (hj : j ≤ ny) : Rect.vertNo nx i j < (nx + 1) * (ny + 1) := by
  unfold Rect.vertNo
  have : j * (nx + 1) ≤ ny * (nx + 1) := Nat.mul_le_mul_right _ hj
  nlinarith

section
variable [Field K] [LinearOrder K]

theorem numbered_rect (x y : Nat → K) (d : Nat → Nat → Bool) (nx ny : Nat) :
    Numbered (Rect.dmesh x y d nx ny) ((nx + 1) * (ny + 1)) := by
  have hl : (Rect.dmesh x y d nx ny).cells.length = 2 * (nx * ny) := by
    show (Rect.simplices x y d nx ny).length = _
    unfold Rect.simplices
    rw [length_flatMap_const (n := 2) (fun _ => rfl), List.length_range]
  have hc : ∀ c ∈ (Rect.dmesh x y d nx ny).cells, ∃ m s, m < nx * ny ∧ c = Rect.simplex x y d nx (m % nx) (m / nx) s := by
    intro c hc
    obtain ⟨m, hm, h⟩ := List.mem_flatMap.1 hc
    simp only [List.mem_cons, List.not_mem_nil, or_false] at h
    rcases h with h | h
    · exact ⟨m, _, List.mem_range.1 hm, h⟩
    · exact ⟨m, _, List.mem_range.1 hm, h⟩
  constructor
  · intro c hmem
    obtain ⟨m, s, hm, rfl⟩ := hc c hmem
    obtain ⟨-, -, h3⟩ := box_row hm
    rw [hl]
    simp only [Rect.simplex, Rect.cellNo]
    rw [h3]
    cases s <;> simp <;> omega
  · intro c hmem v hv
    obtain ⟨m, s, hm, rfl⟩ := hc c hmem
    obtain ⟨h1, h2, -⟩ := box_row hm
    generalize m % nx = i at *
    generalize m / nx = j at *
    simp only [Rect.simplex] at hv
    have key : ∃ a b, a ≤ 1 ∧ b ≤ 1 ∧ v = Rect.vertNo nx (i + a) (j + b) := by
      generalize d i j = b at hv
      cases b <;> cases s <;> simp only [Rect.cornerNos, List.mem_cons, List.not_mem_nil, or_false] at hv <;>
        rcases hv with rfl | rfl | rfl
      all_goals first
        | exact ⟨0, 0, by decide, by decide, rfl⟩
        | exact ⟨1, 0, by decide, by decide, rfl⟩
        | exact ⟨0, 1, by decide, by decide, rfl⟩
        | exact ⟨1, 1, by decide, by decide, rfl⟩
    obtain ⟨a, b, ha, hb, rfl⟩ := key
    exact grid_vert (by omega) (by omega)

theorem numbered_redraw (sqrt : K → K) (f : Vec K 2 → Vec K 2) {D : DMesh K 2} {n : Nat} (h : Numbered D n) :
    Numbered (Sector.redraw sqrt f D) n := by
  constructor
  · intro c hc
    obtain ⟨c', hc', rfl⟩ := List.mem_map.1 hc
    show c'.index < ((D.cells.map _).length : Int)
    rw [List.length_map]
    exact h.1 c' hc'
  · intro c hc v hv
    obtain ⟨c', hc', rfl⟩ := List.mem_map.1 hc
    exact h.2 c' hc' v hv

theorem numbered_crossed (sqrt : K → K) (x y : Nat → K) (nx ny : Nat) :
    Numbered (Crossed.dmesh sqrt x y nx ny) ((nx + 1) * (ny + 1) + nx * ny) := by
  have hl : (Crossed.dmesh sqrt x y nx ny).cells.length = 4 * (nx * ny) := by
    show (Crossed.simplices sqrt x y nx ny).length = _
    unfold Crossed.simplices
    rw [length_flatMap_const (n := 4) (fun _ => rfl), List.length_range]
  have hc : ∀ c ∈ (Crossed.dmesh sqrt x y nx ny).cells, ∃ m t, m < nx * ny ∧
      c = Crossed.simplex sqrt x y nx ny (m % nx) (m / nx) t := by
    intro c hc
    obtain ⟨m, hm, h⟩ := List.mem_flatMap.1 hc
    obtain ⟨t, -, h⟩ := List.mem_map.1 h
    exact ⟨m, t, List.mem_range.1 hm, h.symm⟩
  constructor
  · intro c hmem
    obtain ⟨m, t, hm, rfl⟩ := hc c hmem
    obtain ⟨-, -, h3⟩ := box_row hm
    rw [hl]
    simp only [Crossed.simplex, Crossed.triNo]
    rw [h3]
    cases t <;> simp only [Crossed.Tri.no] <;> push_cast <;> omega
  · intro c hmem v hv
    obtain ⟨m, t, hm, rfl⟩ := hc c hmem
    obtain ⟨h1, h2, h3⟩ := box_row hm
    have hmid : Crossed.midNo nx ny (m % nx) (m / nx) < (nx + 1) * (ny + 1) + nx * ny := by
      unfold Crossed.midNo
      omega
    have hcor : ∀ q, Crossed.cornerNo nx (m % nx) (m / nx) q < (nx + 1) * (ny + 1) + nx * ny := by
      intro q
      have : ∃ a b, a ≤ 1 ∧ b ≤ 1 ∧ Crossed.cornerNo nx (m % nx) (m / nx) q = Rect.vertNo nx (m % nx + a) (m / nx + b) := by
        match q with
        | 0 => exact ⟨0, 0, by decide, by decide, rfl⟩
        | 1 => exact ⟨1, 0, by decide, by decide, rfl⟩
        | 2 => exact ⟨0, 1, by decide, by decide, rfl⟩
        | _ + 3 => exact ⟨1, 1, by decide, by decide, rfl⟩
      obtain ⟨a, b, ha, hb, e⟩ := this
      rw [e]
      have := grid_vert (nx := nx) (ny := ny) (i := m % nx + a) (j := m / nx + b) (by omega) (by omega)
      omega
    simp only [Crossed.simplex, List.mem_cons, List.not_mem_nil, or_false] at hv
    rcases hv with rfl | rfl | rfl
    · exact hcor _
    · exact hcor _
    · exact hmid

theorem numbered_box (sqrt : K → K) (x y z : Nat → K) (nx ny nz : Nat) :
    Numbered (Box.dmesh sqrt x y z nx ny nz) ((nx + 1) * (ny + 1) * (nz + 1)) := by
  have hl : (Box.dmesh sqrt x y z nx ny nz).cells.length = 6 * (nx * ny * nz) := by
    show (Box.simplices sqrt x y z nx ny nz).length = _
    unfold Box.simplices
    rw [length_flatMap_const (n := 6) (fun _ => rfl), List.length_range]
  have hc : ∀ c ∈ (Box.dmesh sqrt x y z nx ny nz).cells, ∃ m t, m < nx * ny * nz ∧
      c = Box.simplex sqrt x y z nx ny (m % nx) (m / nx % ny) (m / nx / ny) t := by
    intro c hc
    obtain ⟨m, hm, h⟩ := List.mem_flatMap.1 hc
    obtain ⟨t, -, h⟩ := List.mem_map.1 h
    exact ⟨m, t, List.mem_range.1 hm, h.symm⟩
  constructor
  · intro c hmem
    obtain ⟨m, t, hm, rfl⟩ := hc c hmem
    obtain ⟨-, h2, h3⟩ := box_row (nx := nx) (ny := ny * nz) (m := m) (by rw [← Nat.mul_assoc]; exact hm)
    obtain ⟨-, -, h6⟩ := box_row h2
    rw [hl]
    simp only [Box.simplex, Box.tetNo]
    rw [h6, h3]
    have hm' : (m : Int) < ((nx * ny * nz : Nat) : Int) := by exact_mod_cast hm
    rw [show ((6 * (nx * ny * nz) : Nat) : Int) = 6 * ((nx * ny * nz : Nat) : Int) by push_cast; ring]
    generalize ((nx * ny * nz : Nat) : Int) = W at hm' ⊢
    cases t <;> simp only [Box.Tet.no] <;> push_cast <;> omega
  · intro c hmem v hv
    obtain ⟨m, t, hm, rfl⟩ := hc c hmem
    obtain ⟨h1, h2, -⟩ := box_row (nx := nx) (ny := ny * nz) (m := m) (by rw [← Nat.mul_assoc]; exact hm)
    obtain ⟨h4, h5, -⟩ := box_row h2
    obtain ⟨s, hs, rfl⟩ := List.mem_map.1 hv
    have hs' : s.1 ≤ 1 ∧ s.2.1 ≤ 1 ∧ s.2.2 ≤ 1 := by
      clear hv
      revert s; cases t <;> decide
    generalize m % nx = i at *
    generalize m / nx % ny = j at *
    generalize m / nx / ny = k at *
    unfold Box.vertNo
    have a1 : i + s.1 ≤ nx := by omega
    have a2 : j + s.2.1 ≤ ny := by omega
    have a3 : k + s.2.2 ≤ nz := by omega
    generalize i + s.1 = a at *
    generalize j + s.2.1 = b at *
    generalize k + s.2.2 = c at *
    have b1 : c * (ny + 1) + b + 1 ≤ (nz + 1) * (ny + 1) := by
      have : c * (ny + 1) ≤ nz * (ny + 1) := Nat.mul_le_mul_right _ a3
      nlinarith
    have b2 : (c * (ny + 1) + b + 1) * (nx + 1) ≤ (nz + 1) * (ny + 1) * (nx + 1) := Nat.mul_le_mul_right _ b1
    nlinarith

/-- C107 (numbers).  The numbers of cells and vertices of the meshes this project makes: rectangles and
sectors of a ring with any diagonals, the same with crossed diagonals, boxes. -/
theorem C107_numbered (sqrt pw cos sin : K → K) (x y z : Nat → K) (d : Nat → Nat → Bool) (nx ny nz : Nat) (a b t : K) :
    Numbered (Rect.dmesh x y d nx ny) ((nx + 1) * (ny + 1)) ∧
    Numbered (Sector.circleMesh cos sin sqrt pw a b t nx ny d) ((nx + 1) * (ny + 1)) ∧
    Numbered (Crossed.dmesh sqrt x y nx ny) ((nx + 1) * (ny + 1) + nx * ny) ∧
    Numbered (Crossed.circleMesh cos sin sqrt pw a b t nx ny) ((nx + 1) * (ny + 1) + nx * ny) ∧
    Numbered (Box.dmesh sqrt x y z nx ny nz) ((nx + 1) * (ny + 1) * (nz + 1)) :=
  ⟨numbered_rect _ _ _ _ _, numbered_redraw _ _ (numbered_rect _ _ _ _ _), numbered_crossed _ _ _ _ _,
    numbered_redraw _ _ (numbered_crossed _ _ _ _ _), numbered_box _ _ _ _ _ _ _⟩

end

/-- The two tetrahedra `twoTets`: five vertices. -/
theorem twoTets_numbered : Numbered twoTets 5 := by
  constructor <;> decide

/-- The arrays of `twoTets`: neighbours of the first tetrahedron, the z components of the normals of the second one,
and the coordinates of the last vertex. -/
example : ((neighborsArray twoTets).toOption.bind (·[0]?)) = some [1, -1, -1, -1] ∧
    ((normalsArray twoTets).toOption.bind (·[1]?)) = some ([-1, 1, 1, 1, -1, 1, 1, 1, -1, -1, -1, -1] : List ℚ) ∧
    (flatCoords twoTets 5).drop 12 = [1, 1, 1] := by decide +kernel

/-- A particle that flies from one of the tetrahedra into the other, in both codes. -/
example : ∃ M cm, buildMesh (le_refl 3) twoTets 0 (fun F => if F = 0 then 0 else 1) = .ok M ∧
    buildCpp twoTets 5 (fun F => if F = 0 then 0 else 1) = .ok cm ∧ cm.Twin M :=
  C107_same_mesh twoTets_triangulation twoTets_numbered 0 _

example : ((buildCpp twoTets 5 (fun F => if F = 0 then 0 else 1)).bind (fun cm =>
      cppMoveCharged (le_refl 3) layoutXYZ cm (fun _ st b => .ok (st, { b.part with del := true })) 10 1 1 0
        (fun _ => none) (((), ![0, 0, 0]), fun _ => 99)
        (⟨![1/4, 1/4, 1/4], ![0, 0, 0], ![1/4, 1/4, 1/4], 0, false, false, 0, 7⟩ : Part ℚ 3 Nat))).map
      (fun t => (t.2.1.cell, t.2.1.del, t.2.1.crossings, t.2.1.x 0)) = .ok (1, false, 1, 1/2) := by decide +kernel

end Dt
