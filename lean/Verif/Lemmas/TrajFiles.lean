import Verif.Spec.TrajFiles
import Std.Data.String.ToInt

/-!
# Lemmas about the trajectory files
-/

namespace Dt.TrajFiles
open Dt.Spec
open TrajSp (points)
variable {δ V : Type}

/-! ### Names -/

theorem digits_nat (n : Nat) : ∀ c ∈ (Nat.repr n).toList, c ≠ 'd' := by
  intro c hc
  have := Nat.isDigit_of_mem_toDigits (b := 10) (by decide) (by decide) (by simpa using hc)
  rintro rfl
  revert this
  decide

theorem digits_int (u : Int) : ∀ c ∈ (u.repr).toList, c ≠ 'd' := by
  intro c hc
  cases u with
  | ofNat n => exact digits_nat n c (by simpa [Int.repr] using hc)
  | negSucc n =>
    have : c = '-' ∨ c ∈ (Nat.repr (n + 1)).toList := by
      simpa [Int.repr, String.toList_append] using hc
    rcases this with rfl | h
    · decide
    · exact digits_nat _ c h

/-- Two texts with one last `d` each, at the end of the first part. -/
theorem split_last_d : ∀ (a b u v : List Char), (∀ c ∈ u, c ≠ 'd') → (∀ c ∈ v, c ≠ 'd') →
    a ++ 'd' :: u = b ++ 'd' :: v → a = b ∧ u = v
  | [], [], u, v, _, _, h => by simpa using h
  | [], x :: b, u, v, hu, _, h => by
    simp only [List.nil_append, List.cons_append, List.cons.injEq] at h
    exact absurd rfl (hu 'd' (by rw [h.2]; simp))
  | x :: a, [], u, v, _, hv, h => by
    simp only [List.nil_append, List.cons_append, List.cons.injEq] at h
    exact absurd rfl (hv 'd' (by rw [← h.2]; simp))
  | x :: a, y :: b, u, v, hu, hv, h => by
    simp only [List.cons_append, List.cons.injEq] at h
    obtain ⟨h1, h2⟩ := split_last_d a b u v hu hv h.2
    exact ⟨by rw [h.1, h1], h2⟩

theorem fileName_inj {s s' : String} {u u' : Int} (h : fileName s u = fileName s' u') :
    s = s' ∧ u = u' := by
  have h := congrArg String.toList h
  simp only [fileName, String.toList_append] at h
  have h := List.append_cancel_right h
  have e : "-uid".toList = ['-', 'u', 'i', 'd'] := by decide
  have e0 : "traj-".toList = ['t', 'r', 'a', 'j', '-'] := by decide
  rw [e, e0] at h
  have h' : (s.toList ++ ['-', 'u', 'i']) ++ 'd' :: u.repr.toList =
      (s'.toList ++ ['-', 'u', 'i']) ++ 'd' :: u'.repr.toList := by simpa using h
  obtain ⟨h1, h2⟩ := split_last_d _ _ _ _ (digits_int u) (digits_int u') h'
  exact ⟨String.toList_inj.mp (List.append_cancel_right h1),
    Int.repr_injective (String.toList_inj.mp h2)⟩

theorem prefix_inj {p : String} {i j : Nat} (h : p ++ Nat.repr i = p ++ Nat.repr j) : i = j := by
  have h := congrArg String.toList h
  simp only [String.toList_append] at h
  exact Nat.repr_injective (String.toList_inj.mp (List.append_cancel_left h))

/-! ### One file -/

/-- The datasets of a point. -/
def setsOf (val : δ → String → V) (wide : Kind → V → V) (atts : List (String × Kind)) (d : δ) :
    List (String × V) := atts.map (fun a => (a.1, wide a.2 (val d a.1)))

theorem putSets_eq (val : δ → String → V) (wide : Kind → V → V) (d : δ) :
    ∀ (atts : List (String × Kind)) (g : Group V), (atts.map Prod.fst).Nodup →
      (∀ e ∈ g.sets, e.1 ∉ atts.map Prod.fst) →
      putSets val wide d atts g = ({ g with sets := g.sets ++ setsOf val wide atts d }, none)
  | [], g, _, _ => by simp [putSets, setsOf]
  | (n, k) :: as, g, hn, hg => by
    simp only [List.map_cons, List.nodup_cons] at hn
    rw [putSets, if_neg]
    · rw [putSets_eq val wide d as _ hn.2]
      · simp [setsOf]
      · intro e he
        simp only [List.mem_append, List.mem_singleton] at he
        rcases he with he | rfl
        · intro hm
          exact hg e he (by simp only [List.map_cons, List.mem_cons]; exact .inr hm)
        · exact hn.1
    · simp only [List.any_eq_true, beq_iff_eq, not_exists, not_and]
      rintro e he rfl
      exact hg e he (by simp)

/-- The groups of a list of points, the first of which has number `i`. -/
def groupsFrom (val : δ → String → V) (wide : Kind → V → V) (atts : List (String × Kind)) :
    Nat → List δ → List (Group V)
  | _, [] => []
  | i, d :: ds => ⟨"Step#" ++ Nat.repr i, some (val d "t"), setsOf val wide atts d⟩ ::
      groupsFrom val wide atts (i + 1) ds

theorem groupsFrom_length (val : δ → String → V) (wide : Kind → V → V) (atts : List (String × Kind)) :
    ∀ (i : Nat) (ds : List δ), (groupsFrom val wide atts i ds).length = ds.length
  | _, [] => rfl
  | i, _ :: ds => by simp [groupsFrom, groupsFrom_length val wide atts (i + 1) ds]

theorem putSteps_eq (val : δ → String → V) (wide : Kind → V → V) (atts : List (String × Kind))
    (hn : (atts.map Prod.fst).Nodup) (ht : "t" ∈ atts.map Prod.fst) (row : List δ) :
    ∀ (k i : Nat) (f : File V), i + k ≤ row.length →
      (∀ g ∈ f.groups, ∀ j, i ≤ j → g.name ≠ "Step#" ++ Nat.repr j) →
      putSteps val wide atts row k i f =
        ({ f with groups := f.groups ++ groupsFrom val wide atts i ((row.drop i).take k) }, none)
  | 0, i, f, _, _ => by simp [putSteps, groupsFrom]
  | k + 1, i, f, hk, hg => by
    have hi : i < row.length := by omega
    rw [putSteps]
    simp only
    rw [if_neg, if_pos ht, List.getElem?_eq_getElem hi]
    · simp only
      rw [putSets_eq val wide _ atts _ hn (by simp)]
      simp only [andThen, List.nil_append]
      rw [putSteps_eq val wide atts hn ht row k (i + 1) _ (by omega)]
      · rw [List.drop_eq_getElem_cons hi, List.take_succ_cons]
        simp [groupsFrom]
      · intro g hg' j hj
        simp only [List.mem_append, List.mem_singleton] at hg'
        rcases hg' with hg' | rfl
        · exact hg g hg' j (by omega)
        · simp only
          intro e
          have := prefix_inj e
          omega
    · simp only [List.any_eq_true, beq_iff_eq, not_exists, not_and]
      intro g hg'
      exact hg g hg' i (Nat.le_refl i)

/-- A file with a heading, a species and points. -/
def fileWith (val : δ → String → V) (wide : Kind → V → V) (title author : String) (s : Species δ V)
    (pts : List δ) : File V :=
  ⟨[("Title:", .str title), ("Author:", .str author),
    ("particle_type_" ++ Nat.repr s.index, .str s.name),
    ("mass_" ++ Nat.repr s.index, .num s.mass),
    ("charge_" ++ Nat.repr s.index, .num s.charge)],
   groupsFrom val wide s.atts 0 pts⟩

theorem ne_of_head {a b : String} (h : a.toList.head? ≠ b.toList.head?) : a ≠ b := by
  rintro rfl
  exact h rfl

theorem head_append (p r : String) (c : Char) (h : p.toList.head? = some c) :
    (p ++ r).toList.head? = some c := by
  rw [String.toList_append, List.head?_append, h]
  rfl

section keys
variable (r : String)

theorem head_type : ("particle_type_" ++ r).toList.head? = some 'p' :=
  head_append _ _ _ (by decide)

theorem head_mass : ("mass_" ++ r).toList.head? = some 'm' := head_append _ _ _ (by decide)

theorem head_charge : ("charge_" ++ r).toList.head? = some 'c' := head_append _ _ _ (by decide)

theorem head_title : "Title:".toList.head? = some 'T' := by decide

theorem head_author : "Author:".toList.head? = some 'A' := by decide

end keys

theorem fill_eq {h : Heading} (val : δ → String → V) (wide : Kind → V → V) {s : Species δ V}
    (hs : Writable s) {title author : String} (h1 : h.title = some title) (h2 : h.author = some author)
    {it n : Nat} {row : List δ} (hr : s.tr.data[it]? = some row) (hl : s.tr.len[it]? = some n) :
    fill h val wide s row it = (fileWith val wide title author s (points s.tr it), none) := by
  have a1 : ("Title:" : String) ≠ "Author:" := by decide
  have a2 : ("Title:" : String) ≠ "particle_type_" ++ Nat.repr s.index :=
    ne_of_head (by rw [head_title, head_type]; decide)
  have a3 : ("Title:" : String) ≠ "mass_" ++ Nat.repr s.index :=
    ne_of_head (by rw [head_title, head_mass]; decide)
  have a4 : ("Title:" : String) ≠ "charge_" ++ Nat.repr s.index :=
    ne_of_head (by rw [head_title, head_charge]; decide)
  have b2 : ("Author:" : String) ≠ "particle_type_" ++ Nat.repr s.index :=
    ne_of_head (by rw [head_author, head_type]; decide)
  have b3 : ("Author:" : String) ≠ "mass_" ++ Nat.repr s.index :=
    ne_of_head (by rw [head_author, head_mass]; decide)
  have b4 : ("Author:" : String) ≠ "charge_" ++ Nat.repr s.index :=
    ne_of_head (by rw [head_author, head_charge]; decide)
  have c3 : "particle_type_" ++ Nat.repr s.index ≠ "mass_" ++ Nat.repr s.index :=
    ne_of_head (by rw [head_type, head_mass]; decide)
  have c4 : "particle_type_" ++ Nat.repr s.index ≠ "charge_" ++ Nat.repr s.index :=
    ne_of_head (by rw [head_type, head_charge]; decide)
  have d4 : "mass_" ++ Nat.repr s.index ≠ "charge_" ++ Nat.repr s.index :=
    ne_of_head (by rw [head_mass, head_charge]; decide)
  have hp : points s.tr it = (row.drop 0).take n := by simp [points, hr, hl]
  rw [hp]
  unfold fileWith fill
  generalize "particle_type_" ++ Nat.repr s.index = kt at *
  generalize "mass_" ++ Nat.repr s.index = km at *
  generalize "charge_" ++ Nat.repr s.index = kc at *
  simp only [h1, h2, Option.map_some, setAttr, andThen, List.filter_nil, List.nil_append, hl]
  rw [putSteps_eq val wide s.atts hs.names hs.hasTime row n 0 _
    (by have := hs.fits it row n hr hl; omega) (by simp)]
  simp [a1, a2, a3, a4, b2, b3, b4, c3, c4, d4]

theorem groupsFrom_find (val : δ → String → V) (wide : Kind → V → V) (atts : List (String × Kind)) :
    ∀ (ds : List δ) (i j : Nat) (d : δ), ds[j]? = some d →
      (groupsFrom val wide atts i ds).find? (fun g => g.name == "Step#" ++ Nat.repr (i + j)) =
        some ⟨"Step#" ++ Nat.repr (i + j), some (val d "t"), setsOf val wide atts d⟩
  | [], _, _, _, h => by simp at h
  | d0 :: ds, i, 0, d, h => by
    simp only [List.getElem?_cons_zero, Option.some.injEq] at h
    subst h
    simp [groupsFrom]
  | d0 :: ds, i, j + 1, d, h => by
    simp only [List.getElem?_cons_succ] at h
    rw [groupsFrom, List.find?_cons_of_neg]
    · have := groupsFrom_find val wide atts ds (i + 1) j d h
      rw [show i + 1 + j = i + (j + 1) by omega] at this
      exact this
    · simp only [beq_iff_eq]
      intro e
      have := prefix_inj e
      omega

theorem sets_find (val : δ → String → V) (wide : Kind → V → V) (d : δ) :
    ∀ (atts : List (String × Kind)), (atts.map Prod.fst).Nodup → ∀ n k, (n, k) ∈ atts →
      (setsOf val wide atts d).find? (fun e => e.1 == n) = some (n, wide k (val d n))
  | [], _, _, _, h => by simp at h
  | (n0, k0) :: as, hn, n, k, h => by
    simp only [List.map_cons, List.nodup_cons] at hn
    simp only [List.mem_cons, Prod.mk.injEq] at h
    by_cases e : n0 = n
    · subst e
      rcases h with ⟨_, rfl⟩ | h
      · simp [setsOf]
      · exact absurd (List.mem_map_of_mem (f := Prod.fst) h) hn.1
    · rcases h with ⟨rfl, _⟩ | h
      · exact absurd rfl e
      · have := sets_find val wide d as hn.2 n k h
        simpa [setsOf, e] using this

theorem fileWith_shows (val : δ → String → V) (wide : Kind → V → V) (title author : String)
    {s : Species δ V} (hs : (s.atts.map Prod.fst).Nodup) (pts : List δ) :
    ShowsPoints val wide title author s (fileWith val wide title author s pts) pts := by
  have a1 : ("Title:" : String) ≠ "Author:" := by decide
  have a2 : ("Title:" : String) ≠ "particle_type_" ++ Nat.repr s.index :=
    ne_of_head (by rw [head_title, head_type]; decide)
  have a3 : ("Title:" : String) ≠ "mass_" ++ Nat.repr s.index :=
    ne_of_head (by rw [head_title, head_mass]; decide)
  have a4 : ("Title:" : String) ≠ "charge_" ++ Nat.repr s.index :=
    ne_of_head (by rw [head_title, head_charge]; decide)
  have b2 : ("Author:" : String) ≠ "particle_type_" ++ Nat.repr s.index :=
    ne_of_head (by rw [head_author, head_type]; decide)
  have b3 : ("Author:" : String) ≠ "mass_" ++ Nat.repr s.index :=
    ne_of_head (by rw [head_author, head_mass]; decide)
  have b4 : ("Author:" : String) ≠ "charge_" ++ Nat.repr s.index :=
    ne_of_head (by rw [head_author, head_charge]; decide)
  have c3 : "particle_type_" ++ Nat.repr s.index ≠ "mass_" ++ Nat.repr s.index :=
    ne_of_head (by rw [head_type, head_mass]; decide)
  have c4 : "particle_type_" ++ Nat.repr s.index ≠ "charge_" ++ Nat.repr s.index :=
    ne_of_head (by rw [head_type, head_charge]; decide)
  have d4 : "mass_" ++ Nat.repr s.index ≠ "charge_" ++ Nat.repr s.index :=
    ne_of_head (by rw [head_mass, head_charge]; decide)
  refine ⟨?_, ?_, ?_, ?_, ?_, ?_, ?_⟩
  · simp [attrOf, fileWith]
  · simp [attrOf, fileWith]
  · unfold attrOf fileWith
    generalize "particle_type_" ++ Nat.repr s.index = kt at *
    simp [a2, b2]
  · unfold attrOf fileWith
    generalize "particle_type_" ++ Nat.repr s.index = kt at *
    generalize "mass_" ++ Nat.repr s.index = km at *
    simp [a3, b3, c3]
  · unfold attrOf fileWith
    generalize "particle_type_" ++ Nat.repr s.index = kt at *
    generalize "mass_" ++ Nat.repr s.index = km at *
    generalize "charge_" ++ Nat.repr s.index = kc at *
    simp [a4, b4, c4, d4]
  · intro i d hd
    have := groupsFrom_find val wide s.atts pts 0 i d hd
    rw [Nat.zero_add] at this
    refine ⟨_, this, rfl, ?_, ?_⟩
    · intro n k hnk
      unfold setOf
      rw [sets_find val wide d s.atts hs n k hnk]
      rfl
    · intro n hn
      unfold setOf
      rw [Option.map_eq_none_iff, List.find?_eq_none]
      intro e he
      simp only [setsOf, List.mem_map] at he
      obtain ⟨a, ha, rfl⟩ := he
      simp only [beq_iff_eq]
      rintro rfl
      exact hn (List.mem_map_of_mem (f := Prod.fst) ha)
  · exact groupsFrom_length ..

/-! ### All files -/

/-- The disk after the trajectories `it`, `it + 1`, ... with the given identities. -/
def put (val : δ → String → V) (wide : Kind → V → V) (title author : String) (s : Species δ V) :
    List Int → Nat → Disk V → Disk V
  | [], _, disk => disk
  | u :: us, it, disk => put val wide title author s us (it + 1) (fun n =>
      if n = fileName s.name u then some (fileWith val wide title author s (points s.tr it)) else disk n)

theorem writeLoop_eq {h : Heading} (val : δ → String → V) (wide : Kind → V → V) {s : Species δ V}
    (hs : Writable s) {title author : String} (h1 : h.title = some title)
    (h2 : h.author = some author) :
    ∀ (us : List Int) (it : Nat) (disk : Disk V), s.uids.drop it = us.map some →
      writeLoop h val wide s us.length it disk = (put val wide title author s us it disk, none)
  | [], _, _, _ => by simp [writeLoop, put]
  | u :: us, it, disk, hu => by
    have hlt : it < s.uids.length := by
      refine Nat.lt_of_not_le fun hc => ?_
      rw [List.drop_eq_nil_of_le hc] at hu
      simp at hu
    have hget : s.uids[it]? = some (some u) := by
      rw [List.drop_eq_getElem_cons hlt] at hu
      simp only [List.map_cons, List.cons.injEq] at hu
      rw [List.getElem?_eq_getElem hlt, hu.1]
    have hd : it < s.tr.data.length := by rw [hs.rows, ← hs.ids]; exact hlt
    have hl : it < s.tr.len.length := by rw [hs.lens, ← hs.ids]; exact hlt
    rw [List.length_cons, writeLoop, writeOne, List.getElem?_eq_getElem hd]
    simp only [hget]
    rw [fill_eq val wide hs h1 h2 (List.getElem?_eq_getElem hd) (List.getElem?_eq_getElem hl)]
    simp only [andThen]
    rw [writeLoop_eq val wide hs h1 h2 us (it + 1)]
    · rfl
    · rw [List.drop_eq_getElem_cons hlt] at hu
      simp only [List.map_cons, List.cons.injEq] at hu
      exact hu.2

theorem put_other (val : δ → String → V) (wide : Kind → V → V) (title author : String)
    (s : Species δ V) (n : String) :
    ∀ (us : List Int) (it : Nat) (disk : Disk V), (∀ u ∈ us, n ≠ fileName s.name u) →
      put val wide title author s us it disk n = disk n
  | [], _, _, _ => rfl
  | u :: us, it, disk, h => by
    rw [put, put_other val wide title author s n us (it + 1) _ (fun v hv => h v (by simp [hv]))]
    rw [if_neg (h u (by simp))]

theorem put_last (val : δ → String → V) (wide : Kind → V → V) (title author : String)
    (s : Species δ V) (u : Int) :
    ∀ (us : List Int) (it j : Nat) (disk : Disk V), us[j]? = some u →
      (∀ j', j < j' → us[j']? ≠ some u) →
      put val wide title author s us it disk (fileName s.name u) =
        some (fileWith val wide title author s (points s.tr (it + j)))
  | [], _, _, _, h, _ => by simp at h
  | v :: us, it, 0, disk, h, hl => by
    simp only [List.getElem?_cons_zero, Option.some.injEq] at h
    subst h
    rw [put, put_other]
    · simp
    · intro w hw e
      obtain ⟨_, rfl⟩ := fileName_inj e
      obtain ⟨j, hj, rfl⟩ := List.getElem_of_mem hw
      exact hl (j + 1) (by omega) (by simp [hj])
  | v :: us, it, j + 1, disk, h, hl => by
    simp only [List.getElem?_cons_succ] at h
    rw [put, put_last val wide title author s u us (it + 1) j _ h]
    · rw [show it + 1 + j = it + (j + 1) by omega]
    · intro j' hj'
      have := hl (j' + 1) (by omega)
      simpa using this

theorem exists_ids {s : Species δ V} (hs : Writable s) : ∃ us : List Int, s.uids = us.map some := by
  have := hs.known
  generalize s.uids = l at *
  induction l with
  | nil => exact ⟨[], rfl⟩
  | cons a l ih =>
    obtain ⟨us, rfl⟩ := ih (fun u hu => this u (by simp [hu]))
    obtain ⟨v, hv⟩ := Option.isSome_iff_exists.mp (this a (by simp))
    exact ⟨v :: us, by simp [hv]⟩

theorem writeSpecies_eq {h : Heading} (val : δ → String → V) (wide : Kind → V → V)
    {s : Species δ V} (hs : Writable s) {title author : String} (h1 : h.title = some title)
    (h2 : h.author = some author) {us : List Int} (hu : s.uids = us.map some) (disk : Disk V) :
    writeSpecies h val wide s disk = (put val wide title author s us 0 disk, none) := by
  have hlen : us.length = s.tr.idx.length := by
    rw [← hs.ids, hu, List.length_map]
  unfold writeSpecies
  split
  · next h0 =>
    have : us = [] := by
      have := hs.rows
      rw [h0, ← hlen] at this
      exact List.length_eq_zero_iff.mp this.symm
    subst this
    rfl
  · rw [if_neg, ← hlen, writeLoop_eq val wide hs h1 h2 us 0 disk (by simpa using hu)]
    simp only [List.any_eq_true, beq_iff_eq, not_exists, not_and]
    exact fun a ha => hs.numbers a ha

theorem writeFiles_eq {h : Heading} (val : δ → String → V) (wide : Kind → V → V) {title author : String}
    (h1 : h.title = some title) (h2 : h.author = some author) :
    ∀ (ss : List (Species δ V)) (disk : Disk V), (∀ s ∈ ss, Writable s) →
      (ss.map Species.name).Nodup →
      ∃ disk', writeFiles h val wide ss disk = (disk', none) ∧
        (∀ s ∈ ss, ∀ (j : Nat) (u : Int), s.uids[j]? = some (some u) →
          (∀ j', j < j' → s.uids[j']? ≠ some (some u)) →
          disk' (fileName s.name u) = some (fileWith val wide title author s (points s.tr j))) ∧
        (∀ n, (∀ s ∈ ss, ∀ u, some u ∈ s.uids → n ≠ fileName s.name u) → disk' n = disk n)
  | [], disk, _, _ => ⟨disk, rfl, by simp, fun _ _ => rfl⟩
  | s :: ss, disk, hw, hn => by
    have hs := hw s (by simp)
    obtain ⟨us, hu⟩ := exists_ids hs
    simp only [List.map_cons, List.nodup_cons] at hn
    obtain ⟨disk', e, g1, g2⟩ := writeFiles_eq val wide h1 h2 ss (put val wide title author s us 0 disk)
      (fun s' hs' => hw s' (by simp [hs'])) hn.2
    refine ⟨disk', ?_, ?_, ?_⟩
    · rw [writeFiles, writeSpecies_eq val wide hs h1 h2 hu]
      exact e
    · intro s' hs' j u hj hl
      simp only [List.mem_cons] at hs'
      rcases hs' with rfl | hs'
      · rw [g2]
        · have hj' : us[j]? = some u := by
            rw [hu, List.getElem?_map] at hj
            simpa using hj
          have := put_last val wide title author s' u us 0 j disk hj' (fun j' h' e' => by
            refine hl j' h' ?_
            rw [hu, List.getElem?_map, e']
            rfl)
          rw [this, Nat.zero_add]
        · intro s2 hs2 v _ e'
          have := (fileName_inj e').1
          exact hn.1 (this ▸ List.mem_map_of_mem (f := Species.name) hs2)
      · exact g1 s' hs' j u hj hl
    · intro n hne
      rw [g2 n (fun s' hs' => hne s' (by simp [hs']))]
      apply put_other
      intro u hu'
      exact hne s (by simp) u (by rw [hu]; exact List.mem_map_of_mem hu')

end Dt.TrajFiles
