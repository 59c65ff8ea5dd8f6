import Verif.Lemmas.Species
import Verif.Props.Field
import Verif.Props.Mover
import Verif.Props.Traj

/-!
# Properties of species tables, species sums, cell indices and histories (C43, C44, C45, C55, C56)
-/

set_option linter.unusedSectionVars false

namespace Dt
open SAP (Reachable)
open Mover
open Species
open Spec (Stores)
variable {K : Type} [Field K] {α : Type}

/-! ### C43 -/

/-- Every species is in exactly one of the two lists, by its charge and in definition order;
the species numbers are 1..n in definition order; charge, mass and charge/mass are those defined.
Construction fails exactly if a mass is zero. -/
theorem C43_species_tables [DecidableEq K] (defs : List (Def K)) (hm : ∀ d ∈ defs, d.mass ≠ 0)
    (hn : (defs.map Def.name).Nodup) :
    ∃ r, initSpecies defs = .ok r ∧ r.names = defs.map Def.name ∧
      r.charged = (defs.filter (fun d => d.charge ≠ 0)).map Def.name ∧
      r.neutral = (defs.filter (fun d => d.charge = 0)).map Def.name ∧
      (∀ d ∈ defs, (d.name ∈ r.charged ↔ d.charge ≠ 0) ∧ (d.name ∈ r.neutral ↔ d.charge = 0)) ∧
      (∀ (i : Nat) (hi : i < defs.length), r.index.get (defs[i].name) = .ok (i + 1)) ∧
      ∀ d ∈ defs, r.charge.get d.name = .ok d.charge ∧ r.mass.get d.name = .ok d.mass ∧
        r.qom.get d.name = .ok (d.charge / d.mass) := by
  have huniq : ∀ d ∈ defs, ∀ e ∈ defs, d.name = e.name → d = e := by
    intro d hd e he h
    exact List.inj_on_of_nodup_map hn hd he h
  refine ⟨_, initFold defs _ hm, rfl, by simp, by simp, ?_, ?_, ?_⟩
  · intro d hd
    simp only [List.nil_append, List.mem_map, List.mem_filter, decide_eq_true_eq]
    constructor
    · exact ⟨fun ⟨e, ⟨he, hc⟩, h⟩ => huniq e he d hd h ▸ hc, fun hc => ⟨d, ⟨hd, hc⟩, rfl⟩⟩
    · exact ⟨fun ⟨e, ⟨he, hc⟩, h⟩ => huniq e he d hd h ▸ hc, fun hc => ⟨d, ⟨hd, hc⟩, rfl⟩⟩
  · intro i hi
    simp only [numberSpecies_eq, List.append_nil, Dict.get]
    have hmem : (defs[i].name, i + 1) ∈ (defs.map Def.name).zipIdx (0 + 1) := by
      rw [List.mem_iff_getElem]
      exact ⟨i, by simpa using hi, by simp; omega⟩
    rw [lookup_reverse _ (by rw [zipIdx_fst]; exact hn) hmem]
  · intro d hd
    simp only [List.append_nil, Dict.get]
    refine ⟨?_, ?_, ?_⟩
    · rw [lookup_reverse _ (by simpa [List.map_map, Function.comp_def] using hn)
        (List.mem_map_of_mem (f := fun d => (d.name, d.charge)) hd)]
    · rw [lookup_reverse _ (by simpa [List.map_map, Function.comp_def] using hn)
        (List.mem_map_of_mem (f := fun d => (d.name, d.mass)) hd)]
    · rw [lookup_reverse _ (by simpa [List.map_map, Function.comp_def] using hn)
        (List.mem_map_of_mem (f := fun d => (d.name, d.charge / d.mass)) hd)]

/-- A species of zero mass is refused. -/
theorem C43_zero_mass [DecidableEq K] (defs : List (Def K)) (h : ∃ d ∈ defs, d.mass = 0) :
    initSpecies defs = .error .zerodiv :=
  initFold_error _ _ h

def demoDefs : List (Def ℚ) := [⟨"plasma_electrons", -1, 1⟩, ⟨"He", 0, 4⟩, ⟨"H_plus", 1, 2⟩]

example : (∀ d ∈ demoDefs, d.mass ≠ 0) ∧ (demoDefs.map Def.name).Nodup := by decide +kernel

/-! ### C56 -/

/-- Two definitions with the same name are accepted; the name is then listed twice among the
charged species, so that the species is advanced twice per step. -/
theorem C56_false_duplicates : ∃ defs : List (Def ℚ),
    ¬ (defs.map Def.name).Nodup ∧ (initSpecies defs).map (fun r => (r.names, r.charged)) =
      .ok (["e", "e"], ["e", "e"]) :=
  ⟨[⟨"e", -1, 1⟩, ⟨"e", -1, 1⟩], by decide +kernel, by decide +kernel⟩

/-- What duplicates do in general: construction succeeds whatever the names are, and the lists of
names keep every repetition. Missing: rejection of duplicates. -/
theorem C56_duplicates_kept_partial [DecidableEq K] (defs : List (Def K))
    (hm : ∀ d ∈ defs, d.mass ≠ 0) :
    ∃ r, initSpecies defs = .ok r ∧ r.names = defs.map Def.name ∧
      ∀ n, r.charged.count n + r.neutral.count n = r.names.count n := by
  refine ⟨_, initFold defs _ hm, rfl, ?_⟩
  intro n
  simp only [List.nil_append]
  induction defs with
  | nil => simp
  | cons d ds ih =>
    have := ih (fun e he => hm e (List.mem_cons_of_mem _ he))
    by_cases hc : d.charge = 0 <;> simp [hc, List.count_cons] at this ⊢ <;> omega

/-! ### C44 -/

/-- `get_species_number` is the sum of the weights of the stored particles, which it leaves as
they are. -/
theorem C44_number_is_sum (w : α → K) {s : SAP α} (hr : Reachable s) {xs : List α}
    (hx : Stores s xs) :
    ∃ s', getSpeciesNumber w s = .ok (s', Spec.number w xs) ∧ Reachable s' ∧ Stores s' xs := by
  obtain ⟨c, ps, e, rfl⟩ := readLoop_stores hr hx
  have := number_pieces w e
  exact ⟨_, this, number_reachable w hr this, stores_withCur hr hx c⟩

/-- `get_species_KE` is the kinetic energy of the stored particles. -/
theorem C44_KE_is_sum (w : α → K) (vel : List (α → K)) (m : K) {s : SAP α} (hr : Reachable s)
    {xs : List α} (hx : Stores s xs) :
    ∃ s', getSpeciesKE w vel m s = .ok (s', Spec.kinetic w vel m xs) ∧ Reachable s' ∧
      Stores s' xs := by
  obtain ⟨c, ps, e, rfl⟩ := readLoop_stores hr hx
  have := KE_pieces w vel m e
  exact ⟨_, this, KE_reachable w vel m hr this, stores_withCur hr hx c⟩

/-- Additivity, and independence of storage: any container holding the union of the populations
of two other containers (of any segment lengths) gives the sum. -/
theorem C44_additive (w : α → K) (vel : List (α → K)) (m : K) {s t u : SAP α} (hs : Reachable s)
    (ht : Reachable t) (hu : Reachable u) {xs ys zs : List α} (hx : Stores s xs) (hy : Stores t ys)
    (hz : Stores u zs) (hp : zs.Perm (xs ++ ys)) :
    ∃ s' t' u' a b c d, getSpeciesNumber w s = .ok (s', a) ∧ getSpeciesNumber w t = .ok (t', b) ∧
      getSpeciesNumber w u = .ok (u', a + b) ∧
      (getSpeciesKE w vel m s).map (·.2) = .ok c ∧ (getSpeciesKE w vel m t).map (·.2) = .ok d ∧
      (getSpeciesKE w vel m u).map (·.2) = .ok (c + d) := by
  obtain ⟨s', e1, -⟩ := C44_number_is_sum w hs hx
  obtain ⟨t', e2, -⟩ := C44_number_is_sum w ht hy
  obtain ⟨u', e3, -⟩ := C44_number_is_sum w hu hz
  obtain ⟨s1, k1, -⟩ := C44_KE_is_sum w vel m hs hx
  obtain ⟨t1, k2, -⟩ := C44_KE_is_sum w vel m ht hy
  obtain ⟨u1, k3, -⟩ := C44_KE_is_sum w vel m hu hz
  refine ⟨s', t', u', Spec.number w xs, Spec.number w ys, Spec.kinetic w vel m xs,
    Spec.kinetic w vel m ys, e1, e2, ?_, by rw [k1]; rfl, by rw [k2]; rfl, ?_⟩
  · rw [e3]; congr 2
    unfold Spec.number
    rw [(hp.map w).sum_eq]; simp
  · rw [k3]; simp only [Except.map]; congr 1
    unfold Spec.kinetic
    rw [(hp.map _).sum_eq]; simp

/-- The total count is the number of particles stored in all species. -/
theorem C44_total_count (ss : List (SAP α)) (pops : List (List α))
    (h : List.Forall₂ (fun s xs => Stores s xs) ss pops) :
    getTotalCount ss = pops.flatten.length := by
  unfold getTotalCount
  have : ∀ n : Int, ss.foldl (fun n s => n + s.getNumberOfItems) n = n + pops.flatten.length := by
    induction h with
    | nil => intro n; simp
    | cons hd htl ih =>
      intro n
      rw [List.foldl_cons, ih, hd.1]
      simp only [List.flatten_cons, List.length_append]
      push_cast
      ring
  rw [this]; simp

/-- After a step in which every particle of the species was deleted, the count is 0 but
`get_species_number` is the sum of `segment length` stale weights. -/
theorem C44_false_after_loss : ∃ s : SAP Nat, s = demoSAP 2 [1, 3, 5] ∧
    (meshPass demoAdv s ()).map (fun r => r.1.getNumberOfItems) = .ok 0 ∧
    ((meshPass demoAdv s ()).bind (fun r => getSpeciesNumber (fun n : Nat => (n : ℚ)) r.1)).map (·.2) =
      .ok 105 :=
  ⟨_, rfl, by decide, by decide +kernel⟩

/-- The exact value in every state in which the read loop ends (in particular after the loss of all
particles, `C14_ghosts`): the sum over what a read loop visits. -/
theorem C44_number_of_visited_partial (w : α → K) {s t : SAP α} {segs : List (List α)}
    (h : s.readLoop = .ok (t, segs)) :
    getSpeciesNumber w s = .ok (t, Spec.number w segs.flatten) :=
  number_pieces w h

example : Reachable Fld.demoStore ∧ Stores Fld.demoStore Fld.demoPop ∧ Fld.demoPop.length = 3 :=
  ⟨Fld.demoStore_reachable, Fld.demoStore_stores, rfl⟩

/-! ### C55 -/

section
variable {locate : α → Int} {inside : α → Except Err Bool} {setCell : α → Int → α}

theorem mapM_relabelled {xs ys : List α} (h : xs.mapM (indexOne locate inside setCell) = .ok ys) :
    Spec.Relabelled setCell (fun p => inside p = .ok true) xs ys ∧
      ys = xs.map (fun p => setCell p (locate p)) := by
  induction xs generalizing ys with
  | nil =>
    simp only [List.mapM_nil, pure, Except.pure, Except.ok.injEq] at h
    subst h; exact ⟨.nil, rfl⟩
  | cons x xs ih =>
    rw [List.mapM_cons] at h
    simp only [bind, Except.bind, pure, Except.pure] at h
    split at h
    · cases h
    · rename_i y hy
      split at h
      · cases h
      · rename_i zs hz
        simp only [Except.ok.injEq] at h
        subst h
        obtain ⟨h1, h2⟩ := ih hz
        simp only [indexOne, bind, Except.bind] at hy
        split at hy
        · cases hy
        · rename_i b hb
          split at hy
          · rename_i hbt
            simp only [Except.ok.injEq] at hy
            subst hy
            rw [hbt] at hb
            exact ⟨.cons _ hb h1, by rw [List.map_cons, h2]⟩
          · cases hy

theorem mapM_index_iff (xs : List α) :
    (∃ ys, xs.mapM (indexOne locate inside setCell) = .ok ys) ↔
      ∀ p ∈ xs, inside (setCell p (locate p)) = .ok true := by
  induction xs with
  | nil => simp [pure, Except.pure]
  | cons x xs ih =>
    rw [List.mapM_cons]
    simp only [List.mem_cons, forall_eq_or_imp, bind, Except.bind, pure, Except.pure, indexOne]
    cases hi : inside (setCell x (locate x)) with
    | error e => simp
    | ok b =>
      cases b with
      | false => simp
      | true =>
        simp only [if_true, true_and]
        rw [← ih]
        constructor
        · rintro ⟨ys, h⟩
          split at h
          · cases h
          · rename_i zs hz
            exact ⟨zs, hz⟩
        · rintro ⟨zs, hz⟩
          exact ⟨_, by rw [hz]⟩

/-- `compute_mesh_cell_indices` succeeds exactly if every particle of every species is inside the
cell found for it; then every particle keeps its place and its other attributes, and is inside the
cell it is labelled with. -/
theorem C55_cell_indices (ss : List (SAP α)) (pops : List (List α))
    (h : List.Forall₂ (fun s xs => Reachable s ∧ Stores s xs) ss pops) :
    if ∀ xs ∈ pops, ∀ p ∈ xs, inside (setCell p (locate p)) = .ok true then
      ∃ ss' pops', indexAll locate inside setCell ss = .ok ss' ∧
        List.Forall₂ (fun s xs => Reachable s ∧ Stores s xs) ss' pops' ∧
        List.Forall₂ (Spec.Relabelled setCell (fun p => inside p = .ok true)) pops pops'
    else ∃ e, indexAll locate inside setCell ss = .error e := by
  induction h with
  | nil => rw [if_pos (by simp)]; exact ⟨[], [], rfl, .nil, .nil⟩
  | @cons s xs ss pops hd htl ih =>
    have inv := SAP.reachable_inv hd.1
    have hc := (SAP.stores_iff inv xs).1 hd.2
    have key := indexSpecies_ok (locate := locate) (inside := inside) (setCell := setCell) inv
    rw [← hc] at key
    have hiff := mapM_index_iff (locate := locate) (inside := inside) (setCell := setCell) xs
    simp only [List.mem_cons, forall_eq_or_imp, indexAll, bind, Except.bind, pure, Except.pure]
    cases hm : xs.mapM (indexOne locate inside setCell) with
    | error e =>
      rw [hm] at key hiff
      have hnot : ¬ ∀ p ∈ xs, inside (setCell p (locate p)) = .ok true := by
        intro hh; obtain ⟨ys, hy⟩ := hiff.2 hh; cases hy
      rw [if_neg (fun hh => hnot hh.1)]
      rw [key]
      exact ⟨e, rfl⟩
    | ok ys =>
      rw [hm] at key hiff
      obtain ⟨s', e', al, c'⟩ := key
      have hall := hiff.1 ⟨ys, rfl⟩
      rw [e']
      by_cases hr : ∀ xs ∈ pops, ∀ p ∈ xs, inside (setCell p (locate p)) = .ok true
      · rw [if_pos hr] at ih
        obtain ⟨ss', pops', h1, h2, h3⟩ := ih
        rw [if_pos ⟨hall, hr⟩]
        refine ⟨s' :: ss', ys :: pops', by rw [h1], .cons ⟨indexSpecies_reachable hd.1 e', ?_⟩ h2,
          .cons (mapM_relabelled hm).1 h3⟩
        rw [SAP.stores_iff al.inv]; exact c'.symm
      · rw [if_neg hr] at ih
        obtain ⟨e, h1⟩ := ih
        rw [if_neg (fun hh => hr hh.2)]
        exact ⟨e, by simp only [h1]⟩

end

/-- The population of the field tests with the cell of a position being its integer part. -/
example : ∃ ss', indexAll (fun p : Fld.Dep => p.2.1.floor) (fun p => .ok (decide ((p.1 : ℚ) ≤ p.2.1)))
    (fun p c => (c.toNat, p.2)) [Fld.demoStore] = .ok ss' := by
  have := C55_cell_indices (locate := fun p : Fld.Dep => p.2.1.floor)
    (inside := fun p => .ok (decide ((p.1 : ℚ) ≤ p.2.1))) (setCell := fun p c => (c.toNat, p.2))
    [Fld.demoStore] [Fld.demoPop] (.cons ⟨Fld.demoStore_reachable, Fld.demoStore_stores⟩ .nil)
  rw [if_pos (by decide +kernel)] at this
  obtain ⟨ss', _, h, _⟩ := this
  exact ⟨ss', h⟩

/-! ### C45 -/

section
variable [LinearOrder K]

/-- The value of a history quantity for a population of given mass. -/
def histValue (w : α → K) (vel : List (α → K)) (q : Quantity) (p : K × List α) : K :=
  match q with
  | .count => p.2.length
  | .KE => Spec.kinetic w vel p.1 p.2
  | .other => 0

/-- The row of a history: for every quantity the value of every species, the value per physical
particle and the sum over the species. -/
def histVals (w : α → K) (vel : List (α → K)) (q : Quantity) (pops : List (K × List α)) : HVals K :=
  ⟨pops.map (fun p => (histValue w vel q p, histValue w vel q p / max (Spec.number w p.2) 1)),
    (pops.map (histValue w vel q)).sum⟩

/-- The containers hold the populations. -/
def HoldsAll (sps : List (HSpecies K α)) (pops : List (K × List α)) : Prop :=
  List.Forall₂ (fun sp p => Reachable sp.sap ∧ Stores sp.sap p.2 ∧ sp.mass = p.1) sps pops

theorem speciesLoop_ok (w : α → K) (vel : List (α → K)) (q : Quantity) (hq : q ≠ .other)
    {sps : List (HSpecies K α)} {pops : List (K × List α)} (h : HoldsAll sps pops) (tot : K) :
    ∃ sps', speciesLoop w vel q sps tot = .ok (sps', ⟨(histVals w vel q pops).perSpecies,
      tot + (histVals w vel q pops).total⟩) ∧ HoldsAll sps' pops := by
  induction h generalizing tot with
  | nil => exact ⟨[], by simp [speciesLoop, histVals], .nil⟩
  | @cons sp p sps pops hd htl ih =>
    obtain ⟨hr, hx, hm⟩ := hd
    have h1 : ∃ s1, speciesValue w vel q sp = .ok (⟨s1, sp.mass⟩, histValue w vel q p) ∧
        Reachable s1 ∧ Stores s1 p.2 := by
      cases q with
      | count =>
        refine ⟨sp.sap, ?_, hr, hx⟩
        simp only [speciesValue, histValue, hx.1, Int.cast_natCast]
      | KE =>
        obtain ⟨s', e, h2, h3⟩ := C44_KE_is_sum w vel sp.mass hr hx
        exact ⟨s', by simp only [speciesValue, e, Except.map, histValue]; rw [← hm], h2, h3⟩
      | other => exact absurd rfl hq
    obtain ⟨s1, e1, hr1, hx1⟩ := h1
    obtain ⟨s2, e2, hr2, hx2⟩ := C44_number_is_sum w hr1 hx1
    obtain ⟨sps', e3, h3⟩ := ih (tot + histValue w vel q p)
    refine ⟨⟨s2, sp.mass⟩ :: sps', ?_, .cons ⟨hr2, hx2, hm⟩ h3⟩
    simp only [speciesLoop, e1, e2, e3, bind, Except.bind, pure, Except.pure, histVals,
      List.map_cons, List.sum_cons]
    rw [add_assoc]

theorem quantityLoop_ok (w : α → K) (vel : List (α → K)) (qs : List Quantity) (hq : .other ∉ qs)
    {sps : List (HSpecies K α)} {pops : List (K × List α)} (h : HoldsAll sps pops) :
    ∃ sps', quantityLoop w vel qs sps = .ok (sps', qs.map (fun q => histVals w vel q pops)) ∧
      HoldsAll sps' pops := by
  induction qs generalizing sps with
  | nil => exact ⟨sps, rfl, h⟩
  | cons q qs ih =>
    obtain ⟨s1, e1, h1⟩ := speciesLoop_ok w vel q (by simp at hq; exact fun hc => hq.1 hc.symm) h 0
    obtain ⟨s2, e2, h2⟩ := ih (by simp at hq ⊢; exact hq.2) h1
    refine ⟨s2, ?_, h2⟩
    simp only [quantityLoop, e1, e2, bind, Except.bind, pure, Except.pure, zero_add, List.map_cons]

/-- A run: at each recording the containers may hold anything. -/
def recordAll (w : α → K) (vel : List (α → K)) (qs : List Quantity) :
    History K → List (Int × K × List (HSpecies K α)) → Except Err (History K)
  | h, [] => .ok h
  | h, (step, time, sps) :: es => do
    let (h', _) ← recordHistory w vel qs h sps step time
    recordAll w vel qs h' es

/-- The row recorded for an event. -/
def rowOf (w : α → K) (vel : List (α → K)) (qs : List Quantity) (e : Int × K × List (K × List α)) :
    HRow K := ⟨e.1, e.2.1, qs.map (fun q => histVals w vel q e.2.2)⟩

theorem recordAll_ok (w : α → K) (vel : List (α → K)) (qs : List Quantity) (hq : .other ∉ qs)
    (es : List (Int × K × List (HSpecies K α))) (ps : List (Int × K × List (K × List α)))
    (h : List.Forall₂ (fun e p => e.1 = p.1 ∧ e.2.1 = p.2.1 ∧ HoldsAll e.2.2 p.2.2) es ps)
    (done : List (HRow K)) (free : Nat) (z : HRow K) (skip : Nat) :
    recordAll w vel qs ⟨done ++ List.replicate free z, done.length, skip⟩ es =
      if es.length ≤ free then
        .ok ⟨done ++ ps.map (rowOf w vel qs) ++ List.replicate (free - es.length) z,
          done.length + es.length, skip⟩
      else .error .index := by
  induction h generalizing done free with
  | nil => simp [recordAll]
  | @cons e p es ps hd htl ih =>
    obtain ⟨step, time, sps⟩ := e
    obtain ⟨step', time', pops⟩ := p
    obtain ⟨h1, h2, h3⟩ := hd
    dsimp only at h1 h2 h3
    subst h1 h2
    simp only [recordAll, recordHistory, bind, Except.bind, pure, Except.pure]
    cases free with
    | zero =>
      rw [pyGet_nat]
      simp [orIndexErr]
    | succ free =>
      rw [pyGet_of_lt (by simp)]
      obtain ⟨sps', eq, _⟩ := quantityLoop_ok w vel qs hq h3
      simp only [eq]
      rw [pySet_of_lt _ (by simp)]
      simp only
      have hset : (done ++ List.replicate (free + 1) z).set done.length
          ⟨step, time, qs.map (fun q => histVals w vel q pops)⟩ =
          (done ++ [rowOf w vel qs (step, time, pops)]) ++ List.replicate free z := by
        rw [List.set_append_right _ _ (by omega), Nat.sub_self, List.replicate_succ,
          List.set_cons_zero]
        simp [rowOf]
      rw [hset]
      have := ih (done ++ [rowOf w vel qs (step, time, pops)]) free
      simp only [List.length_append, List.length_singleton] at this
      rw [this]
      by_cases hl : es.length ≤ free
      · rw [if_pos hl, if_pos (by simpa using hl)]
        simp only [List.length_cons, List.map_cons, Nat.add_sub_add_right]
        congr 2
        · simp
        · omega
      · rw [if_neg hl, if_neg (by simpa using hl)]

/-- With no maximum number of points, recording on the schedule (every step from 0 to
`n_timesteps`) fills every row in order with the values of the populations at that time; one
further record raises IndexError.  Any number of records within the size succeeds. -/
theorem C45_history_fits (w : α → K) (vel : List (α → K)) (qs : List Quantity) (hq : .other ∉ qs)
    (n : Nat) (z : HRow K) :
    ∃ h, newHistory n none z = .ok h ∧
      ∀ (es : List (Int × K × List (HSpecies K α))) (ps : List (Int × K × List (K × List α))),
        List.Forall₂ (fun e p => e.1 = p.1 ∧ e.2.1 = p.2.1 ∧ HoldsAll e.2.2 p.2.2) es ps →
        (es.length = (Recorded.scheduled n h.skip).length →
          ∃ h', recordAll w vel qs h es = .ok h' ∧ h'.rows = ps.map (rowOf w vel qs)) ∧
        (es.length < (Recorded.scheduled n h.skip).length →
          ∃ h', recordAll w vel qs h es = .ok h' ∧
            h'.rows.take es.length = ps.map (rowOf w vel qs)) ∧
        ((Recorded.scheduled n h.skip).length < es.length →
          recordAll w vel qs h es = .error .index) := by
  refine ⟨⟨List.replicate (n / 1 + 1) z, 0, 1⟩, rfl, ?_⟩
  intro es ps hf
  rw [scheduled_length n 1 (by omega)]
  have key := recordAll_ok w vel qs hq es ps hf [] (n / 1 + 1) z 1
  simp only [List.nil_append, List.length_nil, Nat.zero_add] at key
  have hl := hf.length_eq
  refine ⟨?_, ?_, ?_⟩
  · intro he
    rw [if_pos (by omega)] at key
    exact ⟨_, key, by simp [he]⟩
  · intro he
    rw [if_pos (by omega)] at key
    refine ⟨_, key, ?_⟩
    simp only
    rw [List.take_append_of_le_length (by simp [hl]), List.take_of_length_le (by simp [hl])]
  · intro he
    rw [if_neg (by omega)] at key
    exact key

end

/-- A maximum number of points cannot be requested: the constructor fails with NameError. -/
theorem C45_false_max_points (n m : Nat) (z : HRow K) : newHistory n (some m) z = .error .name := rfl

/-- A recorded row of the demonstration population: three particles, count 3, weight 12. -/
example : (do
    let h ← newHistory 1 none (⟨0, 0, []⟩ : HRow ℚ)
    recordAll Fld.demoAttrs.weight [] [.count] h [(0, 0, [⟨Fld.demoStore, 1⟩])]) =
    .ok ⟨[⟨0, 0, [⟨[(3, 1/4)], 3⟩]⟩, ⟨0, 0, []⟩], 1, 1⟩ := by decide +kernel

end Dt
