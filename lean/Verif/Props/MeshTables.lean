import Verif.Spec.MeshTables
import Mathlib.Tactic.Common
import Mathlib.Tactic.ByContra

/-!
# C110: which lookups in a mesh succeed, after any history of calls
-/

namespace Dt
namespace Tables
open Spec (MeshCall makes flagMakes Made CallOk)
variable {V : Type}

/-- The error of a table that was not made: an empty dictionary or None. -/
def missing : What → Err
  | .normals | .neighbors => .type
  | _ => .key

/-- The table can be read for all cells of the mesh, and only for these. -/
def Has (o : Obj V) (w : What) : Prop :=
  ∀ i : Int, read w o i =
    if 0 ≤ i ∧ i.toNat < o.mesh.nCells then .ok (o.mesh.val w i.toNat) else .error .key

/-- The table cannot be read. -/
def Lacks (o : Obj V) (w : What) : Prop := ∀ i : Int, read w o i = .error (missing w)

theorem lookup_range (f : Nat → V) (n k i : Nat) :
    ((List.range' k n).map (fun j => (j, f j))).lookup i =
      if k ≤ i ∧ i < k + n then some (f i) else none := by
  induction n generalizing k with
  | zero => rw [if_neg (by omega)]; rfl
  | succ n ih =>
    rw [List.range'_succ, List.map_cons, List.lookup_cons]
    by_cases h : i = k
    · subst h; rw [if_pos (by omega)]; simp
    · have hb : (i == k) = false := by simpa using h
      rw [hb, ih]
      by_cases h1 : k ≤ i ∧ i < k + (n + 1)
      · rw [if_pos h1, if_pos (by omega)]
      · rw [if_neg h1, if_neg (by omega)]

theorem lookup_tabulate (M : Mesh V) (w : What) (i : Nat) :
    (tabulate M w).lookup i = if i < M.nCells then some (M.val w i) else none := by
  rw [tabulate, List.range_eq_range', lookup_range]
  by_cases h : i < M.nCells
  · rw [if_pos h, if_pos (by omega)]
  · rw [if_neg h, if_neg (by omega)]

theorem getItem_tabulate (M : Mesh V) (w : What) (i : Int) :
    getItem (tabulate M w) i =
      if 0 ≤ i ∧ i.toNat < M.nCells then .ok (M.val w i.toNat) else .error .key := by
  unfold getItem
  rw [lookup_tabulate]
  by_cases h : 0 ≤ i
  · by_cases h2 : i.toNat < M.nCells
    · rw [if_pos h, if_pos h2, if_pos ⟨h, h2⟩]
    · rw [if_pos h, if_neg h2, if_neg (fun q => h2 q.2)]
  · rw [if_neg h, if_neg (fun q => h q.1)]

theorem lookup_putAll (M : Mesh V) (w : What) (is : List Nat) (i : Nat) :
    ∀ d, (putAll M w is d).lookup i = if i ∈ is then some (M.val w i) else d.lookup i := by
  induction is with
  | nil => intro d; simp [putAll]
  | cons j is ih =>
    intro d
    rw [putAll, ih]
    by_cases h : i ∈ is
    · rw [if_pos h, if_pos (List.mem_cons_of_mem _ h)]
    · rw [if_neg h, List.lookup_cons]
      by_cases h2 : i = j
      · subst h2; simp
      · have hb : (i == j) = false := by simpa using h2
        rw [hb, if_neg (by simp [h, h2])]

theorem getItem_putAll (M : Mesh V) (w : What) (d : CellDict V) (i : Int)
    (hd : ¬ (0 ≤ i ∧ i.toNat < M.nCells) → getItem d i = .error .key) :
    getItem (putAll M w (List.range M.nCells) d) i =
      if 0 ≤ i ∧ i.toNat < M.nCells then .ok (M.val w i.toNat) else .error .key := by
  by_cases h : 0 ≤ i ∧ i.toNat < M.nCells
  · unfold getItem
    rw [lookup_putAll, if_pos h.1, if_pos (List.mem_range.2 h.2), if_pos h]
  · rw [if_neg h]
    by_cases h0 : 0 ≤ i
    · have := hd h
      unfold getItem at this ⊢
      rw [if_pos h0] at this ⊢
      rw [lookup_putAll, if_neg (by rw [List.mem_range]; exact fun q => h ⟨h0, q⟩)]
      exact this
    · unfold getItem
      rw [if_neg h0]

/-- The state of all tables: `S` are the ones there are. -/
def Inv (S : What → Prop) (o : Obj V) : Prop := ∀ w, (S w → Has o w) ∧ (¬ S w → Lacks o w)

theorem Inv.out {S : What → Prop} {o : Obj V} (h : Inv S o) (i : Int)
    (hi : ¬ (0 ≤ i ∧ i.toNat < o.mesh.nCells)) : getItem o.volume i = .error .key := by
  by_cases hs : S .volume
  · have := (h .volume).1 hs i
    rw [if_neg hi] at this
    exact this
  · exact (h .volume).2 hs i

theorem Inv.congr {S S' : What → Prop} {o : Obj V} (h : Inv S o) (hs : ∀ w, S w ↔ S' w) :
    Inv S' o := fun w => ⟨fun q => (h w).1 ((hs w).2 q), fun q => (h w).2 (fun q' => q ((hs w).1 q'))⟩

/-- What stays the same. -/
def Same (o o' : Obj V) : Prop :=
  o'.mesh = o.mesh ∧ o'.coords = o.coords ∧ o'.tree = o.tree

/-- A step that makes the tables `T` and leaves the others alone. -/
theorem Inv.step {S : What → Prop} {o o' : Obj V} (h : Inv S o) (T : What → Prop)
    (hm : o'.mesh = o.mesh) (h1 : ∀ w, T w → Has o' w)
    (h2 : ∀ w, ¬ T w → ∀ i, read w o' i = read w o i) : Inv (fun w => S w ∨ T w) o' := by
  intro w
  by_cases ht : T w
  · exact ⟨fun _ => h1 w ht, fun q => absurd (.inr ht) q⟩
  · refine ⟨fun q i => ?_, fun q i => ?_⟩
    · rw [h2 w ht, hm]
      exact (h w).1 (q.resolve_right ht) i
    · rw [h2 w ht]
      exact (h w).2 (fun q' => q (.inl q')) i

theorem compute_spec {S : What → Prop} {o o' : Obj V} (c : Compute) (h : Inv S o)
    (hc : compute c o = .ok o') :
    Inv (fun w => S w ∨ makes (.compute c) w) o' ∧ Same o o' := by
  cases c with
  | cellDict =>
    injection hc with hc; subst hc
    refine ⟨h.step _ rfl ?_ ?_, rfl, rfl, rfl⟩
    · intro w hw i; cases w <;> simp only [makes] at hw
      exact getItem_tabulate _ _ _
    · intro w hw i; cases w <;> first | rfl | simp [makes] at hw
  | verticesDict =>
    injection hc with hc; subst hc
    refine ⟨h.step _ rfl ?_ ?_, rfl, rfl, rfl⟩
    · intro w hw i; cases w <;> simp only [makes] at hw
      exact getItem_tabulate _ _ _
    · intro w hw i; cases w <;> first | rfl | simp [makes] at hw
  | normalsDict =>
    injection hc with hc; subst hc
    refine ⟨h.step _ rfl ?_ ?_, rfl, rfl, rfl⟩
    · intro w hw i; cases w <;> simp only [makes] at hw
      exact getItem_tabulate _ _ _
    · intro w hw i; cases w <;> first | rfl | simp [makes] at hw
  | neighborsDict =>
    injection hc with hc; subst hc
    refine ⟨h.step _ rfl ?_ ?_, rfl, rfl, rfl⟩
    · intro w hw i; cases w <;> simp only [makes] at hw
      exact getItem_tabulate _ _ _
    · intro w hw i; cases w <;> first | rfl | simp [makes] at hw
  | entityDict a =>
    unfold compute at hc
    dsimp only at hc
    split at hc
    · injection hc with hc; subst hc
      refine ⟨h.step _ rfl ?_ ?_, rfl, rfl, rfl⟩
      · intro w hw i
        cases w <;> simp only [makes] at hw
        subst hw
        show (match List.lookup a ((a, _) :: o.entities) with
          | none => _ | some d => getItem d i) = _
        rw [List.lookup_cons]
        simp only [beq_self_eq_true]
        exact getItem_tabulate _ _ _
      · intro w hw i
        cases w with
        | entities b =>
          simp only [makes] at hw
          show (match List.lookup b ((a, _) :: o.entities) with
            | none => _ | some d => getItem d i) = _
          rw [List.lookup_cons]
          have hb : (b == a) = false := by simpa using fun q => hw q.symm
          rw [hb]
          rfl
        | _ => rfl
    · cases hc
  | vertexCells =>
    injection hc with hc; subst hc
    exact ⟨h.congr (fun w => by cases w <;> simp [makes]), rfl, rfl, rfl⟩
  | volumeDict =>
    unfold compute at hc
    dsimp only at hc
    split at hc
    · injection hc with hc; subst hc
      refine ⟨h.step _ rfl ?_ ?_, rfl, rfl, rfl⟩
      · intro w hw i; cases w <;> simp only [makes] at hw
        exact getItem_tabulate _ _ _
      · intro w hw i; cases w <;> first | rfl | simp [makes] at hw
    · split at hc
      · injection hc with hc; subst hc
        refine ⟨h.step _ rfl ?_ ?_, rfl, rfl, rfl⟩
        · intro w hw i; cases w <;> simp only [makes] at hw
          exact getItem_putAll _ _ _ _ (fun q => h.out i q)
        · intro w hw i; cases w <;> first | rfl | simp [makes] at hw
      · cases hc
  | cppArrays =>
    unfold compute at hc
    dsimp only at hc
    split at hc
    · injection hc with hc; subst hc
      refine ⟨?_, rfl, rfl, rfl⟩
      intro w
      have h0 : ∀ i, read w { o with arrays := true } i = read w o i := fun i => by cases w <;> rfl
      refine ⟨fun q i => ?_, fun q i => ?_⟩
      · rw [h0]
        refine (h w).1 (q.resolve_right ?_) i
        cases w <;> simp [makes]
      · rw [h0]
        exact (h w).2 (fun q' => q (.inl q')) i
    · cases hc

theorem compute_ok (c : Compute) (o : Obj V) :
    (∃ o', compute c o = .ok o') ↔ CallOk o.coords o.mesh.tdim (.compute c) := by
  cases c <;> simp only [compute, CallOk, entityNames, Except.ok.injEq, exists_eq', List.mem_cons,
    List.not_mem_nil, or_false]
  · split <;> simp_all
  · by_cases h1 : o.coords = "Cartesian"
    · simp [h1]
    · by_cases h2 : o.coords = "1D-spherical-radial" <;> simp [h1, h2]
  · have h : (o.mesh.tdim + 1 = 2 ∨ o.mesh.tdim + 1 = 3 ∨ o.mesh.tdim + 1 = 4) ↔
        (o.mesh.tdim = 1 ∨ o.mesh.tdim = 2 ∨ o.mesh.tdim = 3) := by omega
    by_cases h1 : o.mesh.tdim + 1 = 2 ∨ o.mesh.tdim + 1 = 3 ∨ o.mesh.tdim + 1 = 4
    · rw [if_pos h1]; simp [h.1 h1]
    · rw [if_neg h1]
      exact ⟨fun ⟨_, q⟩ => by simp at q, fun q => absurd (h.2 q) h1⟩

theorem Same.trans {a b c : Obj V} (h : Same a b) (h' : Same b c) : Same a c :=
  ⟨h'.1.trans h.1, h'.2.1.trans h.2.1, h'.2.2.trans h.2.2⟩

theorem computes_spec (cs : List Compute) : ∀ {S : What → Prop} {o o' : Obj V}, Inv S o →
    computes cs o = .ok o' →
      Inv (fun w => S w ∨ ∃ c ∈ cs, makes (.compute c) w) o' ∧ Same o o' := by
  induction cs with
  | nil =>
    intro S o o' h hc
    injection hc with hc; subst hc
    exact ⟨h.congr (fun w => by simp), rfl, rfl, rfl⟩
  | cons c cs ih =>
    intro S o o' h hc
    unfold computes at hc
    cases h1 : compute c o with
    | error e => rw [h1] at hc; cases hc
    | ok o1 =>
      rw [h1] at hc
      obtain ⟨a1, a2⟩ := compute_spec c h h1
      obtain ⟨b1, b2⟩ := ih a1 hc
      exact ⟨b1.congr (fun w => by simp [or_assoc]), a2.trans b2⟩

theorem computes_ok (cs : List Compute) : ∀ o : Obj V,
    (∃ o', computes cs o = .ok o') ↔ ∀ c ∈ cs, CallOk o.coords o.mesh.tdim (.compute c) := by
  induction cs with
  | nil => intro o; simp [computes]
  | cons c cs ih =>
    intro o
    unfold computes
    cases h1 : compute c o with
    | error e =>
      have : ¬ CallOk o.coords o.mesh.tdim (.compute c) := by
        rw [← compute_ok, h1]; simp
      simp [this]
    | ok o1 =>
      have h2 : CallOk o.coords o.mesh.tdim (.compute c) := (compute_ok c o).1 ⟨_, h1⟩
      have h3 : o1.mesh = o.mesh ∧ o1.coords = o.coords := by
        have hs : Same o o1 := by
          cases c <;> simp only [compute] at h1 <;> (try split at h1) <;> (try split at h1) <;>
            first
              | (cases h1; exact ⟨rfl, rfl, rfl⟩)
              | cases h1
        exact ⟨hs.1, hs.2.1⟩
      dsimp only
      rw [ih, h3.1, h3.2]
      simp [h2]

/-- The calls inside a call of the history. -/
def inner : MeshCall → List Compute
  | .compute c => [c]
  | .particles true => [.cppArrays]
  | .particles false =>
    [.verticesDict, .entityDict "facet", .normalsDict, .neighborsDict, .volumeDict]

theorem computes_one (c : Compute) (o : Obj V) : computes [c] o = compute c o := by
  unfold computes
  cases h : compute c o <;> rfl

theorem apply_eq (c : MeshCall) (o : Obj V) : apply c o = computes (inner c) o := by
  cases c with
  | compute c => exact (computes_one c o).symm
  | particles b =>
    cases b
    · rfl
    · exact (computes_one .cppArrays o).symm

theorem inner_makes (c : MeshCall) (w : What) :
    (∃ d ∈ inner c, makes (.compute d) w) ↔ makes c w := by
  cases c with
  | compute c => simp [inner]
  | particles b => cases b <;> cases w <;> simp [inner, makes, eq_comm]

theorem inner_ok (c : MeshCall) (cs : String) (n : Nat) :
    (∀ d ∈ inner c, CallOk cs n (.compute d)) ↔ CallOk cs n c := by
  cases c with
  | compute c => simp [inner]
  | particles b => cases b <;> simp [inner, CallOk]

theorem applyAll_spec (h : List MeshCall) : ∀ {S : What → Prop} {o o' : Obj V}, Inv S o →
    applyAll h o = .ok o' → Inv (fun w => S w ∨ ∃ c ∈ h, makes c w) o' ∧ Same o o' := by
  induction h with
  | nil =>
    intro S o o' hi hc
    injection hc with hc; subst hc
    exact ⟨hi.congr (fun w => by simp), rfl, rfl, rfl⟩
  | cons c cs ih =>
    intro S o o' hi hc
    unfold applyAll at hc
    cases h1 : apply c o with
    | error e => rw [h1] at hc; cases hc
    | ok o1 =>
      rw [h1] at hc
      rw [apply_eq] at h1
      obtain ⟨a1, a2⟩ := computes_spec _ hi h1
      obtain ⟨b1, b2⟩ := ih a1 hc
      refine ⟨b1.congr (fun w => ?_), a2.trans b2⟩
      rw [inner_makes]
      simp [or_assoc]

theorem empty_inv (M : Mesh V) (cs : String) (tree : Bool) :
    Inv (fun _ => False) (⟨M, cs, [], [], [], none, none, [], tree, false⟩ : Obj V) := by
  intro w
  refine ⟨fun q => q.elim, fun _ i => ?_⟩
  cases w <;> first | rfl | (simp only [read, getItem, missing]; split <;> rfl)

theorem computes_same {cs : List Compute} : ∀ {o o' : Obj V}, computes cs o = .ok o' →
    Same o o' := by
  induction cs with
  | nil => intro o o' h; injection h with h; subst h; exact ⟨rfl, rfl, rfl⟩
  | cons c cs ih =>
    intro o o' h
    unfold computes at h
    cases h1 : compute c o with
    | error e => rw [h1] at h; cases h
    | ok o1 =>
      rw [h1] at h
      have hs : Same o o1 := by
        cases c <;> simp only [compute] at h1 <;> (try split at h1) <;> (try split at h1) <;>
          first
            | (cases h1; exact ⟨rfl, rfl, rfl⟩)
            | cases h1
      exact hs.trans (ih h)

theorem flag_makes (dicts cpp : Bool) (w : What) :
    ((False ∨ ∃ c ∈ (if dicts then allDicts else []), makes (.compute c) w) ∨
      ∃ c ∈ (if cpp then [Compute.cppArrays] else []), makes (.compute c) w) ↔
      (dicts = true ∧ flagMakes w) := by
  cases dicts <;> cases cpp <;> cases w <;> simp [allDicts, makes, flagMakes, eq_comm]

/-- The state of the tables after any history. -/
theorem history_spec {M : Mesh V} {coords : Option String} {dicts cpp tree : Bool}
    {h : List MeshCall} {o : Obj V} (hh : history M coords dicts cpp tree h = .ok o) :
    Inv (Made dicts h) o ∧ o.mesh = M ∧ some o.coords = coords ∧ o.tree = tree := by
  unfold history construct at hh
  cases coords with
  | none => cases hh
  | some cs =>
    dsimp only at hh
    cases h1 : computes (if dicts then allDicts else [])
        (⟨M, cs, [], [], [], none, none, [], tree, false⟩ : Obj V) with
    | error e => rw [h1] at hh; cases hh
    | ok o1 =>
      rw [h1] at hh
      dsimp only [bind, Except.bind] at hh
      cases h2 : computes (if cpp then [Compute.cppArrays] else []) o1 with
      | error e => rw [h2] at hh; cases hh
      | ok o2 =>
        rw [h2] at hh
        dsimp only at hh
        obtain ⟨a1, a2⟩ := computes_spec _ (empty_inv M cs tree) h1
        obtain ⟨b1, b2⟩ := computes_spec _ a1 h2
        obtain ⟨c1, c2⟩ := applyAll_spec h b1 hh
        have hs := (a2.trans b2).trans c2
        refine ⟨c1.congr (fun w => ?_), hs.1, congrArg some hs.2.1, hs.2.2⟩
        rw [flag_makes]
        rfl

end Tables

open Tables
open Spec (MeshCall makes flagMakes Made CallOk)
variable {V : Type}

/-- **C110.** The construction of a mesh and the calls made afterwards succeed exactly if a
coordinate system was given and every call is possible for the coordinate system and the dimension
of the mesh; the order of the calls does not matter. -/
theorem C110_history_succeeds (M : Mesh V) (coords : Option String) (dicts cpp tree : Bool)
    (h : List MeshCall) :
    (∃ o, history M coords dicts cpp tree h = .ok o) ↔
      ∃ cs, coords = some cs ∧
        (dicts = true → cs = "Cartesian" ∨ cs = "1D-spherical-radial") ∧
        (cpp = true → M.tdim = 1 ∨ M.tdim = 2 ∨ M.tdim = 3) ∧
        ∀ c ∈ h, CallOk cs M.tdim c := by
  have hall : ∀ (h : List MeshCall) (o : Obj V), (∃ o', applyAll h o = .ok o') ↔
      ∀ c ∈ h, CallOk o.coords o.mesh.tdim c := by
    intro h
    induction h with
    | nil => intro o; simp [applyAll]
    | cons c cs ih =>
      intro o
      unfold applyAll
      rw [apply_eq]
      cases h1 : computes (inner c) o with
      | error e =>
        have : ¬ CallOk o.coords o.mesh.tdim c := by
          rw [← inner_ok, ← computes_ok, h1]; simp
        simp [this, bind, Except.bind]
      | ok o1 =>
        have h2 : CallOk o.coords o.mesh.tdim c := by
          rw [← inner_ok, ← computes_ok, h1]; exact ⟨_, rfl⟩
        have h3 := computes_same h1
        dsimp only [bind, Except.bind]
        rw [ih, h3.1, h3.2.1]
        simp [h2]
  cases coords with
  | none => simp [history, construct, bind, Except.bind]
  | some cs =>
    unfold history construct
    dsimp only
    have hd : (∀ c ∈ (if dicts then allDicts else []), CallOk cs M.tdim (.compute c)) ↔
        (dicts = true → cs = "Cartesian" ∨ cs = "1D-spherical-radial") := by
      cases dicts <;> simp [allDicts, CallOk]
    have hp : (∀ c ∈ (if cpp then [Compute.cppArrays] else []), CallOk cs M.tdim (.compute c)) ↔
        (cpp = true → M.tdim = 1 ∨ M.tdim = 2 ∨ M.tdim = 3) := by
      cases cpp <;> simp [CallOk]
    have q1 := computes_ok (if dicts then allDicts else [])
      (⟨M, cs, [], [], [], none, none, [], tree, false⟩ : Obj V)
    dsimp only at q1
    rw [hd] at q1
    cases h1 : computes (if dicts then allDicts else [])
        (⟨M, cs, [], [], [], none, none, [], tree, false⟩ : Obj V) with
    | error e =>
      rw [h1] at q1
      have : ¬ (dicts = true → cs = "Cartesian" ∨ cs = "1D-spherical-radial") := by
        rw [← q1]; simp
      simp [this, bind, Except.bind]
    | ok o1 =>
      have s1 := computes_same h1
      have d1 := q1.1 ⟨_, h1⟩
      have q2 := computes_ok (if cpp then [Compute.cppArrays] else []) o1
      rw [s1.1, s1.2.1] at q2
      dsimp only at q2
      rw [hp] at q2
      dsimp only [bind, Except.bind]
      cases h2 : computes (if cpp then [Compute.cppArrays] else []) o1 with
      | error e =>
        rw [h2] at q2
        have : ¬ (cpp = true → M.tdim = 1 ∨ M.tdim = 2 ∨ M.tdim = 3) := by rw [← q2]; simp
        simp [this]
      | ok o2 =>
        have s2 := computes_same h2
        have d2 := q2.1 ⟨_, h2⟩
        dsimp only
        rw [hall, s2.1, s2.2.1, s1.1, s1.2.1]
        constructor
        · intro q; exact ⟨cs, rfl, d1, d2, q⟩
        · rintro ⟨cs', e, _, _, q⟩
          injection e with e; subst e; exact q

/-- **C110.** After any history of calls, a table that was asked for - by the constructor, by its
own method, or by `initialize_particle_mesh` with Python movers - gives what the mesh says for
every cell of the mesh and a KeyError for any other index (also for NO_CELL), and a table that was
not asked for gives an error for every index. -/
theorem C110_reads {M : Mesh V} {coords : Option String} {dicts cpp tree : Bool}
    {h : List MeshCall} {o : Obj V} (hh : history M coords dicts cpp tree h = .ok o) (w : What)
    (i : Int) :
    (Made dicts h w → 0 ≤ i → i.toNat < M.nCells → read w o i = .ok (M.val w i.toNat)) ∧
    (Made dicts h w → ¬ (0 ≤ i ∧ i.toNat < M.nCells) → read w o i = .error .key) ∧
    (¬ Made dicts h w → read w o i =
      .error (if w = .normals ∨ w = .neighbors then .type else .key)) := by
  obtain ⟨h1, h2, _, _⟩ := history_spec hh
  refine ⟨fun q a b => ?_, fun q a => ?_, fun q => ?_⟩
  · rw [(h1 w).1 q, h2, if_pos ⟨a, b⟩]
  · rw [(h1 w).1 q, h2, if_neg a]
  · rw [(h1 w).2 q]
    cases w <;> simp [missing]

theorem Tables.bind_ok {α β : Type} {x : Except Err α} {f : α → Except Err β} {b : β} :
    (x >>= f) = .ok b ↔ ∃ a, x = .ok a ∧ f a = .ok b := by
  cases x <;> simp [bind, Except.bind]

theorem Tables.readable {S : What → Prop} {o : Obj V} (h : Inv S o) (w : What) (i : Int)
    (h0 : 0 ≤ i) (h1 : i.toNat < o.mesh.nCells) : (∃ v, read w o i = .ok v) ↔ S w := by
  by_cases hs : S w
  · have := (h w).1 hs i
    rw [if_pos ⟨h0, h1⟩] at this
    simp [hs, this]
  · simp [hs, (h w).2 hs i]

/-- **C110.** After any history, the Python movers can follow a particle that starts on the mesh
exactly if the cell objects were asked for and, if it crosses a facet, also the normals, the facet
indices and the neighbors. -/
theorem C110_movers {M : Mesh V} {coords : Option String} {dicts cpp tree : Bool}
    {h : List MeshCall} {o : Obj V} (hh : history M coords dicts cpp tree h = .ok o)
    (crossed : List Int) (last : Option Int)
    (h1 : ∀ i ∈ crossed, 0 ≤ i ∧ i.toNat < M.nCells)
    (h2 : ∀ i ∈ last, 0 ≤ i ∧ i.toNat < M.nCells) :
    trip o crossed last = .ok () ↔
      (crossed ≠ [] ∨ last ≠ none → Made dicts h .cell) ∧
      (crossed ≠ [] → Made dicts h .normals ∧ Made dicts h (.entities "facet") ∧
        Made dicts h .neighbors) := by
  obtain ⟨a1, a2, _, _⟩ := history_spec hh
  have rd : ∀ w i, 0 ≤ i ∧ i.toNat < M.nCells → ((∃ v, read w o i = .ok v) ↔ Made dicts h w) :=
    fun w i hi => readable a1 w i hi.1 (by rw [a2]; exact hi.2)
  have ins : ∀ i, 0 ≤ i ∧ i.toNat < M.nCells → (isInside o i = .ok () ↔ Made dicts h .cell) := by
    intro i hi
    rw [← rd .cell i hi, isInside, bind_ok]
    simp [pure, Except.pure]
  have crs : ∀ i, 0 ≤ i ∧ i.toNat < M.nCells → (crossing o i = .ok () ↔
      (Made dicts h .cell ∧ Made dicts h .normals) ∧ Made dicts h (.entities "facet") ∧
        Made dicts h .neighbors) := by
    intro i hi
    rw [← rd .cell i hi, ← rd .normals i hi, ← rd (.entities "facet") i hi, ← rd .neighbors i hi,
      crossing, findFacet]
    simp only [bind_ok, pure, Except.pure]
    constructor
    · rintro ⟨_, ⟨v1, e1, v2, e2, _⟩, v3, e3, v4, e4, _⟩
      exact ⟨⟨⟨_, e1⟩, _, e2⟩, ⟨_, e3⟩, _, e4⟩
    · rintro ⟨⟨⟨v1, e1⟩, v2, e2⟩, ⟨v3, e3⟩, v4, e4⟩
      exact ⟨(), ⟨v1, e1, v2, e2, trivial⟩, v3, e3, v4, e4, trivial⟩
  induction crossed with
  | nil =>
    cases last with
    | none => simp [trip]
    | some i => rw [trip, ins i (h2 i rfl)]; simp
  | cons i is ih =>
    have hi := h1 i (List.mem_cons_self ..)
    have ih := ih (fun j hj => h1 j (List.mem_cons_of_mem _ hj))
    rw [trip, bind_ok]
    simp only [bind_ok, ins i hi, crs i hi, ih]
    constructor
    · rintro ⟨_, b1, _, ⟨⟨_, b2⟩, b3, b4⟩, _⟩
      exact ⟨fun _ => b1, fun _ => ⟨b2, b3, b4⟩⟩
    · rintro ⟨b1, b2⟩
      have b1 := b1 (.inl (List.cons_ne_nil _ _))
      have b2 := b2 (List.cons_ne_nil _ _)
      exact ⟨(), b1, (), ⟨⟨b1, b2.1⟩, b2.2⟩, fun _ => b1, fun _ => b2⟩

/-- **C110.** A mesh constructed with `compute_dictionaries=True` serves the Python movers, whatever
is called afterwards. -/
theorem C110_dictionaries_serve {M : Mesh V} {coords : Option String} {cpp tree : Bool}
    {h : List MeshCall} {o : Obj V} (hh : history M coords true cpp tree h = .ok o)
    (crossed : List Int) (last : Option Int)
    (h1 : ∀ i ∈ crossed, 0 ≤ i ∧ i.toNat < M.nCells)
    (h2 : ∀ i ∈ last, 0 ≤ i ∧ i.toNat < M.nCells) : trip o crossed last = .ok () :=
  (C110_movers hh crossed last h1 h2).2
    ⟨fun _ => .inl ⟨rfl, trivial⟩, fun _ => ⟨.inl ⟨rfl, trivial⟩, .inl ⟨rfl, rfl⟩, .inl ⟨rfl, trivial⟩⟩⟩

/-- **C110.** Densities can be divided by the cell volumes exactly if the volumes were asked for
(or the mesh has no cells); the divisors are then the volumes of the cells. -/
theorem C110_volumes {M : Mesh V} {coords : Option String} {dicts cpp tree : Bool}
    {h : List MeshCall} {o : Obj V} (hh : history M coords dicts cpp tree h = .ok o) :
    (Made dicts h .volume →
      divideByVolumes o = .ok ((List.range M.nCells).map (M.val .volume))) ∧
    (¬ Made dicts h .volume → 0 < M.nCells → divideByVolumes o = .error .key) := by
  obtain ⟨a1, a2, _, _⟩ := history_spec hh
  unfold divideByVolumes
  rw [a2]
  refine ⟨fun q => ?_, fun q hn => ?_⟩
  · have : ∀ l : List Nat, (∀ i ∈ l, i < M.nCells) → divideAll o l = .ok (l.map (M.val .volume)) := by
      intro l
      induction l with
      | nil => intro _; rfl
      | cons i is ih =>
        intro hl
        have hr := (a1 .volume).1 q (i : Int)
        rw [a2, if_pos ⟨Int.natCast_nonneg i, by simpa using hl i (List.mem_cons_self ..)⟩] at hr
        rw [divideAll, hr, ih (fun j hj => hl j (List.mem_cons_of_mem _ hj))]
        rfl
    exact this _ (fun i hi => List.mem_range.1 hi)
  · obtain ⟨n, hn'⟩ : ∃ n, M.nCells = n + 1 := ⟨M.nCells - 1, by omega⟩
    rw [hn', List.range_succ_eq_map, divideAll, (a1 .volume).2 q]
    rfl

/-- **C110.** The cells of existing particles can be found exactly if the tree and the cell objects
were asked for (or there are no particles). -/
theorem C110_cell_indices {M : Mesh V} {coords : Option String} {dicts cpp tree : Bool}
    {h : List MeshCall} {o : Obj V} (hh : history M coords dicts cpp tree h = .ok o)
    (cells : List Nat) (hc : ∀ i ∈ cells, i < M.nCells) :
    cellIndices o cells = .ok () ↔ (cells ≠ [] → tree = true ∧ Made dicts h .cell) := by
  obtain ⟨a1, a2, _, a4⟩ := history_spec hh
  induction cells with
  | nil => simp [cellIndices]
  | cons i is ih =>
    have hi := hc i (List.mem_cons_self ..)
    have ih := ih (fun j hj => hc j (List.mem_cons_of_mem _ hj))
    have ins : isInside o (i : Int) = .ok () ↔ Made dicts h .cell := by
      rw [← readable a1 .cell (i : Int) (Int.natCast_nonneg i) (by rw [a2]; simpa using hi),
        isInside, bind_ok]
      simp [pure, Except.pure]
    have tr : cellIndex o = .ok () ↔ tree = true := by
      unfold cellIndex
      rw [a4]
      cases tree <;> simp
    rw [cellIndices, bind_ok]
    simp only [bind_ok, ins, tr, ih]
    constructor
    · rintro ⟨_, b1, _, b2, _⟩ _
      exact ⟨b1, b2⟩
    · intro q
      have q := q (List.cons_ne_nil _ _)
      exact ⟨(), q.1, (), q.2, fun _ => q⟩

/-- **C110 is false for `initialize_particle_mesh` alone.**  Its description is "Compute mesh data
needed to move particles", and the comment in the constructor says that the dictionaries should be
made by it.  But on a mesh constructed without dictionaries it does not make the cell objects, so
that moving any particle with the Python movers, even one that stays in its cell, is a KeyError;
for the compiled movers it makes no dictionaries at all, and the volumes and the cells of the
particles cannot be looked up. -/
theorem C110_false_particle_mesh {M : Mesh V} {cs : String} {cpp tree useCpp : Bool}
    {o : Obj V} (hh : history M (some cs) false cpp tree [.particles useCpp] = .ok o) :
    (∀ crossed last, crossed ≠ [] ∨ last ≠ none → trip o crossed last = .error .key) ∧
    (∀ cells, cells ≠ [] → tree = true → cellIndices o cells = .error .key) ∧
    (useCpp = true → 0 < M.nCells → divideByVolumes o = .error .key) := by
  have hcell : ¬ Made false [.particles useCpp] .cell := by
    cases useCpp <;> simp [Made, makes]
  have hins : ∀ i : Int, isInside o i = .error .key := by
    intro i
    have := (C110_reads hh .cell i).2.2 hcell
    unfold isInside
    rw [this]
    rfl
  refine ⟨?_, ?_, ?_⟩
  · intro crossed last hne
    cases crossed with
    | nil =>
      cases last with
      | none => exact absurd hne (by simp)
      | some i => exact hins i
    | cons i is => rw [trip, hins]; rfl
  · intro cells hne ht
    cases cells with
    | nil => exact absurd rfl hne
    | cons i is =>
      have := (history_spec hh).2.2.2
      rw [cellIndices, cellIndex, this, ht, hins]
      rfl
  · intro hu hn
    refine (C110_volumes hh).2 ?_ hn
    subst hu
    simp [Made, makes]

/-! A mesh of two triangles: without dictionaries it can be handed to a `Particle_C` object (so the
hypothesis above is met), and then the two calls that a program needs besides make it serve. -/

def twoCells : Mesh Nat := ⟨2, 2, fun _ i => i⟩

example : (∃ o, history twoCells (some "Cartesian") false false true [.particles false] = .ok o) :=
  (C110_history_succeeds _ _ _ _ _ _).2 ⟨_, rfl, by simp, by simp, by simp [CallOk]⟩

example : (do
    let o ← history twoCells (some "Cartesian") false false true [.particles false]
    trip o [0] (some 1)) = .error .key := by decide +kernel

example : (do
    let o ← history twoCells (some "Cartesian") false false true
      [.compute .cellDict, .particles false]
    trip o [0] (some 1)) = .ok () := by decide +kernel

example : (do
    let o ← history twoCells (some "Cartesian") true true true [.particles true]
    trip o [0] (some 1)) = .ok () := by decide +kernel

end Dt
