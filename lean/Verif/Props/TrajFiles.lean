import Verif.Lemmas.TrajFiles
import Verif.Props.TrajLoop

/-!
# Properties of the trajectory files (C100)
-/

namespace Dt
open TrajFiles Spec
open TrajSp (points)

section files
variable {δ V : Type}

/-- **C100 (names).** Different particles have different files: the file name determines the species
and the unique ID, whatever characters the species' name contains. -/
theorem C100_names (s s' : String) (u u' : Int) :
    fileName s u = fileName s' u' ↔ s = s' ∧ u = u' :=
  ⟨fileName_inj, by rintro ⟨rfl, rfl⟩; rfl⟩

/-- **C100 (files).** With a title and an author, the call returns normally and the file of a unique ID
shows exactly the recorded points of the last trajectory with that ID; all other files are as before.
So if the unique IDs of a species are different, every trajectory is on disk. -/
theorem C100_files (h : Heading) (val : δ → String → V) (wide : Kind → V → V) {title author : String}
    (h1 : h.title = some title) (h2 : h.author = some author) (ss : List (Species δ V))
    (hw : ∀ s ∈ ss, Writable s) (hn : (ss.map Species.name).Nodup) (disk : Disk V) :
    ∃ disk', writeFiles h val wide ss disk = (disk', none) ∧
      (∀ s ∈ ss, ∀ (j : Nat) (u : Int), s.uids[j]? = some (some u) →
        (∀ j', j < j' → s.uids[j']? ≠ some (some u)) →
        ∃ f, disk' (fileName s.name u) = some f ∧
          ShowsPoints val wide title author s f (points s.tr j)) ∧
      (∀ n, (∀ s ∈ ss, ∀ u, some u ∈ s.uids → n ≠ fileName s.name u) → disk' n = disk n) := by
  obtain ⟨disk', e, g1, g2⟩ := writeFiles_eq val wide h1 h2 ss disk hw hn
  refine ⟨disk', e, ?_, g2⟩
  intro s hs j u hj hl
  exact ⟨_, g1 s hs j u hj hl, fileWith_shows val wide title author (hw s hs).names _⟩

/-- **C100 (nothing lost).** The same when no two trajectories of a species have the same ID. -/
theorem C100_distinct (h : Heading) (val : δ → String → V) (wide : Kind → V → V)
    {title author : String} (h1 : h.title = some title) (h2 : h.author = some author)
    (ss : List (Species δ V)) (hw : ∀ s ∈ ss, Writable s) (hn : (ss.map Species.name).Nodup)
    (hd : ∀ s ∈ ss, s.uids.Nodup) (disk : Disk V) :
    ∃ disk', writeFiles h val wide ss disk = (disk', none) ∧
      ∀ s ∈ ss, ∀ j, j < s.tr.idx.length → ∃ u f, s.uids[j]? = some (some u) ∧
        disk' (fileName s.name u) = some f ∧
          ShowsPoints val wide title author s f (points s.tr j) := by
  obtain ⟨disk', e, g1, -⟩ := C100_files h val wide h1 h2 ss hw hn disk
  refine ⟨disk', e, ?_⟩
  intro s hs j hj
  have hs' := hw s hs
  obtain ⟨us, hu⟩ := exists_ids hs'
  have hlt : j < us.length := by
    have := hs'.ids
    rw [hu, List.length_map] at this
    omega
  have hj' : s.uids[j]? = some (some us[j]) := by
    rw [hu, List.getElem?_map, List.getElem?_eq_getElem hlt]
    rfl
  obtain ⟨f, hf, hp⟩ := g1 s hs j us[j] hj' (by
    intro j' hjj e'
    have := (List.getElem?_inj (i := j) (j := j') (by rw [hu, List.length_map]; exact hlt) (hd s hs)).mp
      (by rw [hj', e'])
    omega)
  exact ⟨us[j], f, hj', hf, hp⟩

/-- **C100 is false without a title or an author** (`DTcontrol_C` has None for both): the file of the
first trajectory is emptied, whatever it held, and a TypeError is raised. -/
theorem C100_false_untitled (h : Heading) (val : δ → String → V) (wide : Kind → V → V)
    (hh : h.title = none ∨ h.author = none) (s : Species δ V) (ss : List (Species δ V))
    (hs : Writable s) {u : Int} (hu : s.uids[0]? = some (some u)) (disk : Disk V) :
    ∃ disk' f, writeFiles h val wide (s :: ss) disk = (disk', some .type) ∧
      disk' (fileName s.name u) = some f ∧ f.groups = [] ∧
      ∀ n, n ≠ fileName s.name u → disk' n = disk n := by
  have hlt : 0 < s.uids.length := by
    rcases Nat.eq_zero_or_pos s.uids.length with h0 | h0
    · rw [List.length_eq_zero_iff.mp h0] at hu
      simp at hu
    · exact h0
  have hd : 0 < s.tr.data.length := by rw [hs.rows, ← hs.ids]; exact hlt
  have hi : s.tr.idx.length = (s.tr.idx.length - 1) + 1 := by have := hs.ids; omega
  have hf : (fill h val wide s s.tr.data[0] 0).2 = some .type ∧
      (fill h val wide s s.tr.data[0] 0).1.groups = [] := by
    unfold fill
    rcases hh with hh | hh
    · simp [hh, setAttr, andThen]
    · cases ht : h.title with
      | none => simp [setAttr, andThen]
      | some t => simp [hh, setAttr, andThen]
  refine ⟨fun n => if n = fileName s.name u then some (fill h val wide s s.tr.data[0] 0).1 else disk n,
    _, ?_, if_pos rfl, hf.2, fun n hn => if_neg hn⟩
  rw [writeFiles, writeSpecies, if_neg (by intro e; rw [e] at hd; simp at hd), if_neg, hi, writeLoop,
    writeOne, List.getElem?_eq_getElem hd]
  · simp only [hu]
    rw [hf.1]
    simp [andThen]
  · simp only [List.any_eq_true, beq_iff_eq, not_exists, not_and]
    exact fun a ha => hs.numbers a ha

/-- **C100 is false for a trajectory without unique ID** (the default of `create_trajectory`, used by
examples/random-accel/random-accel.py:167): a TypeError, and no file of this species is written from
this trajectory on. -/
theorem C100_false_anonymous (h : Heading) (val : δ → String → V) (wide : Kind → V → V)
    (s : Species δ V) (ss : List (Species δ V)) (hrow : s.tr.data ≠ []) (hidx : s.tr.idx ≠ [])
    (hnum : ∀ a ∈ s.atts, a.2 ≠ .other) (hu : s.uids[0]? = some none) (disk : Disk V) :
    writeFiles h val wide (s :: ss) disk = (disk, some .type) := by
  have hd : 0 < s.tr.data.length := List.length_pos_iff.mpr hrow
  have hi : s.tr.idx.length = (s.tr.idx.length - 1) + 1 := by
    have := List.length_pos_iff.mpr hidx
    omega
  rw [writeFiles, writeSpecies, if_neg hrow, if_neg, hi, writeLoop, writeOne,
    List.getElem?_eq_getElem hd]
  · simp only [hu, andThen]
  · simp only [List.any_eq_true, beq_iff_eq, not_exists, not_and]
    exact hnum

/-- **C100 is false for recorded attributes that are not numbers:** a RuntimeError before any file of
the species is written. -/
theorem C100_false_text (h : Heading) (val : δ → String → V) (wide : Kind → V → V)
    (s : Species δ V) (ss : List (Species δ V)) (hrow : s.tr.data ≠ []) {a : String × Kind}
    (ha : a ∈ s.atts) (hk : a.2 = .other) (disk : Disk V) :
    writeFiles h val wide (s :: ss) disk = (disk, some .runtime) := by
  rw [writeFiles, writeSpecies, if_neg hrow, if_pos]
  · rfl
  · simp only [List.any_eq_true, beq_iff_eq]
    exact ⟨a, ha, hk⟩

end files

/-! ### The files of a program -/

section program
open TrajLoop
variable {τ α δ T V : Type} [Add T]

theorem ids_move (c : Cfg α δ) (uid : α → Int) (sl : Nat) (last : Option Int) (charged : Bool)
    (m : Motion τ α δ T) : ∀ (ds : List (Diary Int α δ)) (k : Nat) (side : τ)
      (r : List (Diary Int α δ) × τ),
      moveDiaries c uid sl last charged m k ds side = .ok r → r.1.map Diary.owner = ds.map Diary.owner
  | [], _, _, r, h => by
    simp only [moveDiaries, Except.ok.injEq] at h
    subst h
    rfl
  | d :: ds, k, side, r, h => by
    simp only [moveDiaries] at h
    split at h
    · cases h
    · rename_i d' side' hd
      split at h
      · cases h
      · rename_i ds' side'' hr
        cases h
        have := ids_move c uid sl last charged m ds (k + 1) side' _ hr
        simp only [List.map_cons] at this ⊢
        rw [this]
        congr 1
        split at hd
        · unfold Diary.move at hd
          split at hd
          · cases hd
            rfl
          · split at hd
            · cases hd
            · cases hd
              rfl
        · cases hd
          rfl

theorem ids_on (f : Diary Int α δ → Except TFault (Diary Int α δ)) (g : List Int → List Int)
    (hf : ∀ d d', f d = .ok d' → d'.owner = g d.owner) :
    ∀ (k : Nat) (ds ds' : List (Diary Int α δ)), onDiary f k ds = .ok ds' →
      ds'.map Diary.owner = modifyAt g k (ds.map Diary.owner)
  | _, [], _, h => by simp [onDiary] at h
  | 0, d :: ds, ds', h => by
    simp only [onDiary] at h
    split at h
    · cases h
    · rename_i d' hd
      cases h
      simp [modifyAt, hf d d' hd]
  | k + 1, d :: ds, ds', h => by
    simp only [onDiary] at h
    split at h
    · cases h
    · rename_i ds1 hd
      cases h
      simp [modifyAt, ids_on f g hf k ds ds1 hd]

theorem modifyAt_id {β : Type} : ∀ (k : Nat) (l : List β), modifyAt (fun b => b) k l = l
  | _, [] => by simp [modifyAt]
  | 0, _ :: _ => rfl
  | k + 1, b :: bs => by simp [modifyAt, modifyAt_id k bs]

theorem modifyAt_map {β γ : Type} (f : β → γ) (g : β → β) (g' : γ → γ) (h : ∀ b, f (g b) = g' (f b)) :
    ∀ (k : Nat) (l : List β), (modifyAt g k l).map f = modifyAt g' k (l.map f)
  | _, [] => by simp [modifyAt]
  | 0, b :: _ => by simp [modifyAt, h]
  | k + 1, b :: bs => by simp [modifyAt, modifyAt_map f g g' h k bs]

/-- The lists of unique IDs belonging to a state of the specification. -/
def idLists (i : Diaries τ Int α δ) : List (List (Option Int)) :=
  i.pops.map (fun d => d.owner.map some)

theorem ids_exec (c : Cfg α δ) (uid : α → Int) (sl : Nat) (op : Op τ α δ T)
    (i i' : Diaries τ Int α δ) (h : i.exec c uid sl op = .ok i') :
    idLists i' = noteId c uid (idLists i) op := by
  have e : ∀ j : Diaries τ Int α δ, idLists j = (j.pops.map Diary.owner).map (List.map some) := by
    intro j
    simp [idLists]
  cases op with
  | advance charged m =>
    simp only [Diaries.exec] at h
    split at h
    · cases h
    · rename_i ds side' hd
      cases h
      rw [e, e]
      simp only [noteId]
      rw [ids_move c uid sl _ charged m _ _ _ _ hd]
  | record step mkC mkN =>
    simp only [Diaries.exec] at h
    split at h
    · cases h
      rfl
    · split at h
      · cases h
        simp [idLists, noteId, Diary.note]
      · cases h
  | create k p first =>
    simp only [Diaries.exec] at h
    split at h
    · cases h
    · rename_i ds hd
      cases h
      rw [e, e]
      simp only [noteId]
      by_cases ht : c.isTraj p = true
      · rw [if_pos ht, ids_on _ (· ++ [uid p]) _ _ _ _ hd]
        · rw [modifyAt_map (List.map some) (· ++ [uid p]) (· ++ [some (uid p)]) (by simp)]
        · intro d d' he
          unfold Diary.create at he
          split at he
          · cases he
          split at he
          · cases he
          split at he
          · cases he
          split at he
          · cases he
          cases he
          simp_all
      · rw [if_neg ht, ids_on _ (fun b => b) _ _ _ _ hd, modifyAt_id]
        intro d d' he
        unfold Diary.create at he
        split at he
        · cases he
        split at he
        · cases he
        split at he
        · cases he
        split at he
        · cases he
        cases he
        simp_all
  | look k =>
    simp only [Diaries.exec] at h
    split at h
    · cases h
    · rename_i ds hd
      cases h
      rw [e, e]
      simp only [noteId]
      rw [ids_on _ (fun b => b) _ _ _ _ hd, modifyAt_id]
      intro d d' he
      unfold Diary.look at he
      split at he
      · cases he
      · cases he
        rfl
  | other f =>
    simp only [Diaries.exec] at h
    split at h
    · cases h
    · cases h
      rfl

theorem ids_run (c : Cfg α δ) (uid : α → Int) (sl : Nat) (ops : List (Op τ α δ T)) :
    ∀ (i i' : Diaries τ Int α δ), i.run c uid sl ops = .ok i' →
      idLists i' = ops.foldl (noteId c uid) (idLists i) := by
  induction ops with
  | nil =>
    intro i i' h
    cases h
    rfl
  | cons op ops ih =>
    intro i i' h
    simp only [Diaries.run] at h
    split at h
    · cases h
    · rename_i i1 he
      rw [ih i1 i' h, ids_exec c uid sl op i i1 he]
      rfl

/-- The trajectory object's view of the species at the end of a program: names, masses, charges and
recorded attributes as given, lists and unique IDs as the program left them. -/
def assemble (ms : List (Species δ V)) (sps : List (Sp α δ)) (ids : List (List (Option Int))) :
    List (Species δ V) :=
  List.zipWith (fun m r => { m with tr := r.1.tr, uids := r.2 }) ms (sps.zip ids)

/-- **C100 (programs).** A program records trajectories (any order of creating, moving, recording, as
in C78) and then writes the files, whatever the order of the species in
`charged_species + neutral_species`: every particle that has had a trajectory, gone or not, has a file
that shows its diary, up to the size of the data array; no other file is touched. -/
theorem C100_program (c : Cfg α δ) (uid : α → Int) {sl : Nat} (hsl : 0 < sl) (junk : α) (side : τ)
    (kinds : List Bool) (ops : List (Op τ α δ T)) (hk : ∀ op ∈ ops, op.Keeps c uid)
    {i : Diaries τ Int α δ} (hi : (freshDiaries side kinds).run c uid sl ops = .ok i)
    (h : Heading) (val : δ → String → V) (wide : Kind → V → V) {title author : String}
    (h1 : h.title = some title) (h2 : h.author = some author)
    (ms : List (Species δ V)) (hm : ms.length = kinds.length) (hn : (ms.map Species.name).Nodup)
    (hatts : ∀ m ∈ ms, (∀ a ∈ m.atts, a.2 ≠ .other) ∧ (m.atts.map Prod.fst).Nodup ∧
      "t" ∈ m.atts.map Prod.fst) (disk : Disk V) :
    ∃ w, run c (freshWorld sl junk side kinds) ops = .ok w ∧
      ∀ ss, ss.Perm (assemble ms w.sps (idsOf c uid kinds.length ops)) →
        ∃ disk', writeFiles h val wide ss disk = (disk', none) ∧
          (∀ (k : Nat) m d, ms[k]? = some m → i.pops[k]? = some d → ∀ u ∈ d.owner,
            ∃ f, disk' (fileName m.name u) = some f ∧
              ShowsPoints val wide title author m f ((d.log u).take c.np)) ∧
          (∀ n, (∀ (k : Nat) m d, ms[k]? = some m → i.pops[k]? = some d → ∀ u ∈ d.owner,
            n ≠ fileName m.name u) → disk' n = disk n) := by
  have key := run_agree ops hk (fresh_rel c uid hsl junk side kinds)
  rw [hi] at key
  obtain ⟨w, e, hr⟩ := key
  refine ⟨w, e, ?_⟩
  have hids : idsOf c uid kinds.length ops = idLists i := by
    rw [ids_run c uid sl ops _ _ hi]
    unfold idsOf
    congr 1
    simp [idLists, freshDiaries, freshDiary, Function.comp_def]
  have hlen : i.pops.length = kinds.length := by
    have h3 := congrArg List.length hids
    rw [idLists, List.length_map] at h3
    rw [← h3]
    unfold idsOf
    have mlen : ∀ (g : List (Option Int) → List (Option Int)) (k : Nat) (l : List (List (Option Int))),
        (modifyAt g k l).length = l.length := by
      intro g k l
      induction l generalizing k with
      | nil => simp [modifyAt]
      | cons a l ih => cases k <;> simp [modifyAt, ih]
    have : ∀ (ops : List (Op τ α δ T)) (l : List (List (Option Int))),
        (ops.foldl (noteId c uid) l).length = l.length := by
      intro ops
      induction ops with
      | nil => intro l; rfl
      | cons op ops ih =>
        intro l
        rw [List.foldl_cons, ih]
        cases op <;> simp only [noteId]
        split
        · exact mlen _ _ _
        · rfl
    rw [this, List.length_replicate]
  have hwl : w.sps.length = i.pops.length := hr.sps.length_eq
  intro ss hp
  rw [hids] at hp
  -- the species, by number
  have hget : ∀ (k : Nat) s, (assemble ms w.sps (idLists i))[k]? = some s ↔
      ∃ m sp d, ms[k]? = some m ∧ w.sps[k]? = some sp ∧ i.pops[k]? = some d ∧
        RelD c uid sl sp d ∧ s = { m with tr := sp.tr, uids := d.owner.map some } := by
    intro k s
    unfold assemble idLists
    rw [List.getElem?_zipWith, List.zip, List.getElem?_zipWith, List.getElem?_map]
    constructor
    · intro hk
      cases hm' : ms[k]? with
      | none => simp [hm'] at hk
      | some m =>
        cases hs' : w.sps[k]? with
        | none => simp [hs'] at hk
        | some sp =>
          cases hd' : i.pops[k]? with
          | none => simp [hd'] at hk
          | some d =>
            simp only [hm', hs', hd', Option.map_some, Option.some.injEq] at hk
            refine ⟨m, sp, d, rfl, rfl, rfl, ?_, hk.symm⟩
            have := List.forall₂_iff_get.mp hr.sps
            obtain ⟨l1, e1⟩ := List.getElem?_eq_some_iff.mp hs'
            obtain ⟨l2, e2⟩ := List.getElem?_eq_some_iff.mp hd'
            have := this.2 k l1 l2
            simp only [List.get_eq_getElem] at this
            rw [e1, e2] at this
            exact this
    · rintro ⟨m, sp, d, hm', hs', hd', -, rfl⟩
      simp [hm', hs', hd']
  have hmem : ∀ s ∈ ss, ∃ (k : Nat) (m : Species δ V) (sp : Sp α δ) (d : Diary Int α δ),
      ms[k]? = some m ∧ w.sps[k]? = some sp ∧ i.pops[k]? = some d ∧
        RelD c uid sl sp d ∧ s = { m with tr := sp.tr, uids := d.owner.map some } := by
    intro s hs
    obtain ⟨k, hk'⟩ := List.mem_iff_getElem?.mp (hp.mem_iff.mp hs)
    exact ⟨k, (hget k s).mp hk'⟩
  have hnames : ((assemble ms w.sps (idLists i)).map Species.name) = ms.map Species.name := by
    apply List.ext_getElem?
    intro k
    rw [List.getElem?_map, List.getElem?_map]
    cases hm' : ms[k]? with
    | none =>
      cases ha : (assemble ms w.sps (idLists i))[k]? with
      | none => rfl
      | some s =>
        obtain ⟨m, _, _, hm'', _⟩ := (hget k s).mp ha
        rw [hm'] at hm''
        cases hm''
    | some m =>
      have hk : k < ms.length := (List.getElem?_eq_some_iff.mp hm').1
      have l1 : k < w.sps.length := by omega
      have l2 : k < i.pops.length := by omega
      have := List.forall₂_iff_get.mp hr.sps
      have hrd := this.2 k l1 l2
      rw [(hget k _).mpr ⟨m, _, _, hm', List.getElem?_eq_getElem l1, List.getElem?_eq_getElem l2,
        hrd, rfl⟩]
      rfl
  have hw : ∀ s ∈ ss, Writable s := by
    intro s hs
    obtain ⟨k, m, sp, d, hm', hs', hd', hrd, rfl⟩ := hmem s hs
    obtain ⟨a1, a2, a3⟩ := hatts m (List.mem_of_getElem? hm')
    have hf := hrd.tracked.follows
    unfold TrajSp.Follows at hf
    refine ⟨hrd.wf.len, hrd.wf.data, ?_, ?_, ?_, a1, a2, a3⟩
    · simp only
      rw [hf]
      simp
    · simp
    · intro j row n hrow hlen'
      simp only at hrow hlen'
      rw [hrd.wf.row j row hrow]
      exact hrd.wf.le j n hlen'
  have hn' : (ss.map Species.name).Nodup := by
    rw [(hp.map Species.name).nodup_iff, hnames]
    exact hn
  obtain ⟨disk', e', g1, g2⟩ := C100_files h val wide h1 h2 ss hw hn' disk
  refine ⟨disk', e', ?_, ?_⟩
  · intro k m d hm' hd' u hu
    obtain ⟨l2, e2⟩ := List.getElem?_eq_some_iff.mp hd'
    have l1 : k < w.sps.length := by omega
    have hrd : RelD c uid sl w.sps[k] d := by
      have := (List.forall₂_iff_get.mp hr.sps).2 k l1 l2
      simp only [List.get_eq_getElem] at this
      rw [e2] at this
      exact this
    have hs := (hget k _).mpr ⟨m, _, d, hm', List.getElem?_eq_getElem l1, hd', hrd, rfl⟩
    have hs := hp.mem_iff.mpr (List.mem_of_getElem? hs)
    obtain ⟨j, hj⟩ := List.mem_iff_getElem?.mp hu
    obtain ⟨f, hf, hsh⟩ := g1 _ hs j u (by simp [hj]) (by
      intro j' hjj ej
      simp only [List.getElem?_map] at ej
      have ej' : d.owner[j']? = some u := by simpa using ej
      have lj : j < d.owner.length := (List.getElem?_eq_some_iff.mp hj).1
      have := (List.getElem?_inj (i := j) (j := j') lj hrd.nodup).mp (by rw [hj, ej'])
      omega)
    refine ⟨f, hf, ?_⟩
    simp only at hsh
    rw [hrd.pts j u hj] at hsh
    exact ⟨hsh.title, hsh.author, hsh.species, hsh.mass, hsh.charge, hsh.steps, hsh.count⟩
  · intro n hne
    apply g2
    intro s hs u hu
    obtain ⟨k, m, sp, d, hm', hs', hd', hrd, rfl⟩ := hmem s hs
    exact hne k m d hm' hd' u (by simpa using hu)

end program

/-! ### Concrete cases -/

/-- Recorded values of the walkers of C78: the time and the position. -/
def walkVal (d : String × Int × Int) (n : String) : Int := if n = "t" then d.2.1 else d.2.2

def walkSpecies : List (Species (String × Int × Int) Int) :=
  [⟨"ion-uid1", 1, 16, 1, [("t", .floating), ("x", .floating)], TrajSp.empty, []⟩,
   ⟨"atom", 2, 16, 0, [("x", .integer), ("t", .floating)], TrajSp.empty, []⟩]

/-- Non-vacuity of `C100_program`: the walkers of C78. -/
example : ∃ i : Diaries Nat Int TrajLoop.WalkPart (String × Int × Int),
    (TrajLoop.freshDiaries 0 [true, false]).run (TrajLoop.walkCfg 10) (fun p => (p.1 : Int)) 2
      TrajLoop.walkProg = .ok i ∧ i.pops.map Diary.owner = [[1, 3, 4], [1]] := by
  have : ((((TrajLoop.freshDiaries 0 [true, false]).run (TrajLoop.walkCfg 10) (fun p => (p.1 : Int)) 2
      TrajLoop.walkProg).toOption.map (fun i => i.pops.map Diary.owner))) = some [[1, 3, 4], [1]] := by
    decide +kernel
  cases h : (TrajLoop.freshDiaries 0 [true, false]).run (TrajLoop.walkCfg 10)
      (fun p => (p.1 : Int)) 2 TrajLoop.walkProg with
  | error e => rw [h] at this; cases this
  | ok i =>
    rw [h] at this
    exact ⟨i, rfl, Option.some.inj this⟩

example : ∀ op ∈ TrajLoop.walkProg, op.Keeps (TrajLoop.walkCfg 10)
    (fun p : TrajLoop.WalkPart => (p.1 : Int)) := by
  intro op ho
  have := TrajLoop.walkProg_keeps 10 op ho
  cases op with
  | advance charged m =>
    intro k st p st' p' evs hc
    obtain ⟨a, b, c⟩ := this k st p st' p' evs hc
    exact ⟨by simp only [a], b, c⟩
  | _ => trivial

example : (walkSpecies.map Species.name).Nodup ∧ ∀ m ∈ walkSpecies,
    (∀ a ∈ m.atts, a.2 ≠ .other) ∧ (m.atts.map Prod.fst).Nodup ∧ "t" ∈ m.atts.map Prod.fst := by
  decide

/-- Two trajectories of one species, of lengths 2 and 1, with the given IDs. -/
def twoTracks (u v : Option Int) : Species (String × Int × Int) Int :=
  ⟨"e", 1, 9, -1, [("t", .floating), ("x", .floating)],
   ⟨[0, 1], [2, 1], [[("", 0, 5), ("", 1, 6), ("", 0, 0)], [("", 0, 7), ("", 0, 0), ("", 0, 0)]]⟩,
   [u, v]⟩

/-- Non-vacuity of `C100_files`, `C100_distinct`, `C100_false_untitled`. -/
theorem twoTracks_writable (u v : Int) : Writable (twoTracks (some u) (some v)) := by
  refine ⟨rfl, rfl, rfl, ?_, ?_, by simp [twoTracks], by simp [twoTracks], by simp [twoTracks]⟩
  · intro a ha
    simp only [twoTracks, List.mem_cons, List.not_mem_nil, or_false] at ha
    rcases ha with rfl | rfl <;> rfl
  · intro j row n h1 h2
    match j with
    | 0 =>
      simp only [twoTracks, List.getElem?_cons_zero, Option.some.injEq] at h1 h2
      subst h1 h2
      decide
    | 1 =>
      simp only [twoTracks, List.getElem?_cons_zero, List.getElem?_cons_succ,
        Option.some.injEq] at h1 h2
      subst h1 h2
      decide
    | j + 2 => simp [twoTracks] at h1

example : (twoTracks (some 3) (some 5)).uids.Nodup := by decide

/-- Non-vacuity of `C100_false_anonymous`, `C100_false_text`. -/
example : (twoTracks none none).uids[0]? = some none ∧ (twoTracks none none).tr.data ≠ [] ∧
    (twoTracks none none).tr.idx ≠ [] ∧ ∀ a ∈ (twoTracks none none).atts, a.2 ≠ .other := by
  decide

/-- **C100 is false when two trajectories of a species have the same unique ID** (particles made from a
list with IDs chosen by the user, beside particles from sources, which count from the start; or a list
used twice): the second file replaces the first, and no file shows the points of the first one. -/
theorem C100_false_same_id : ∃ disk',
    writeFiles ⟨some "t", some "a"⟩ walkVal (fun _ v => v) [twoTracks (some 1) (some 1)] (fun _ => none)
      = (disk', none) ∧
    ¬ ∃ n f, disk' n = some f ∧ ShowsPoints walkVal (fun _ v => v) "t" "a"
      (twoTracks (some 1) (some 1)) f (points (twoTracks (some 1) (some 1)).tr 0) := by
  obtain ⟨disk', e, g1, g2⟩ := C100_files (V := Int) ⟨some "t", some "a"⟩ walkVal (fun _ v => v)
    (title := "t") (author := "a") rfl rfl [twoTracks (some 1) (some 1)]
    (by intro s hs; simp only [List.mem_singleton] at hs; subst hs; exact twoTracks_writable 1 1)
    (by simp) (fun _ => none)
  refine ⟨disk', e, ?_⟩
  rintro ⟨n, f, hf, hs⟩
  obtain ⟨f', hf', hs'⟩ := g1 (twoTracks (some 1) (some 1)) (by simp) 1 1 rfl (by
    intro j' hj'
    match j', hj' with
    | j + 2, _ => simp [twoTracks])
  by_cases hn : n = fileName (twoTracks (some 1) (some 1)).name 1
  · rw [hn, hf'] at hf
    cases hf
    have a := hs.count
    rw [hs'.count] at a
    revert a
    decide
  · rw [g2 n] at hf
    · cases hf
    · intro s hs2 u hu
      simp only [List.mem_singleton] at hs2
      subst hs2
      have : u = 1 := by
        simp only [twoTracks, List.mem_cons, Option.some.injEq, List.not_mem_nil, or_false] at hu
        omega
      rw [this]
      exact hn

end Dt
