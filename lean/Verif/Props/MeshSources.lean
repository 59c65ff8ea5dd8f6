import Verif.Model.MeshSources
import Verif.Props.BC

/-!
# Functions for source regions (C123)
-/

namespace Dt
namespace MeshSources
variable {F : Type}

theorem tags_mem (dict : List (String × Int)) (t : Int) : t ∈ tags dict ↔ ∃ b, (b, t) ∈ dict := by
  have aux : ∀ (d : List (String × Int)) (l : List Int),
      t ∈ d.foldl (fun l e => if e.2 ∈ l then l else l ++ [e.2]) l ↔ t ∈ l ∨ ∃ b, (b, t) ∈ d := by
    intro d
    induction d with
    | nil => intro l; simp
    | cons e d ih =>
      intro l
      obtain ⟨b, s⟩ := e
      rw [List.foldl_cons, ih]
      dsimp only
      split
      · rename_i h
        constructor
        · rintro (h' | ⟨b', h'⟩)
          · exact .inl h'
          · exact .inr ⟨b', List.mem_cons_of_mem _ h'⟩
        · rintro (h' | ⟨b', h'⟩)
          · exact .inl h'
          · rcases List.mem_cons.1 h' with h' | h'
            · cases h'; exact .inl h
            · exact .inr ⟨b', h'⟩
      · rw [List.mem_append, List.mem_singleton]
        simp only [List.mem_cons, Prod.mk.injEq]
        constructor
        · rintro ((h' | h') | ⟨b', h'⟩)
          · exact .inl h'
          · exact .inr ⟨b, .inl ⟨rfl, h'⟩⟩
          · exact .inr ⟨b', .inr h'⟩
        · rintro (h' | ⟨b', ⟨-, h'⟩ | h'⟩)
          · exact .inl (.inl h')
          · exact .inl (.inr h')
          · exact .inr ⟨b', h'⟩
  rw [tags, aux]
  simp

/-- The name of a tag that occurs. -/
theorem invName_some {dict : List (String × Int)} {t : Int} (h : ∃ b, (b, t) ∈ dict) : ∃ b, invName dict t = some b := by
  obtain ⟨b, hb⟩ := h
  unfold invName
  cases hf : dict.reverse.find? (fun e => e.2 == t) with
  | none => exact absurd (List.find?_eq_none.1 hf (b, t) (List.mem_reverse.2 hb)) (by simp)
  | some e => exact ⟨e.1, rfl⟩

theorem tagOf_of_mem {dict : List (String × Int)} {t : Int} (h : ∃ b, (b, t) ∈ dict) : ∃ b, TagOf dict t b := by
  induction dict with
  | nil => obtain ⟨b, hb⟩ := h; cases hb
  | cons e d ih =>
    by_cases hd : ∃ b, (b, t) ∈ d
    · obtain ⟨b, hb⟩ := ih hd
      exact ⟨b, .there e hb⟩
    · obtain ⟨b, hb⟩ := h
      rcases List.mem_cons.1 hb with rfl | hb
      · exact ⟨b, .here (fun e he h => hd ⟨e.1, by rw [← h]; exact he⟩)⟩
      · exact absurd ⟨b, hb⟩ hd

theorem loopSpecies_eq (cb : Callbacks F) (b : String) (t : Int) (bdef : Option F) (sps : List String) (tab : Table F) :
    loopSpecies cb b t bdef sps tab =
      if sps = [] then .ok tab
      else if bdef = none ∧ ∀ sp ∈ sps, cb ("bc_at_" ++ b ++ "_for_" ++ sp) = none then
        .ok (sps.foldl (fun tab sp => put tab t sp none) tab)
      else .error .name := by
  induction sps generalizing tab with
  | nil => rfl
  | cons sp sps ih =>
    rw [loopSpecies, if_neg (List.cons_ne_nil sp sps)]
    cases hs : cb ("bc_at_" ++ b ++ "_for_" ++ sp) with
    | some f =>
      dsimp only
      rw [if_pos (by rfl), if_neg (fun h => by rw [h.2 sp (by simp)] at hs; cases hs)]
    | none =>
      cases bdef with
      | some f =>
        dsimp only
        rw [if_pos (by rfl), if_neg (fun h => by cases h.1)]
      | none =>
        dsimp only
        rw [if_neg (by simp), ih]
        by_cases he : sps = []
        · subst he; simp [hs]
        · rw [if_neg he]
          by_cases ha : ∀ sp ∈ sps, cb ("bc_at_" ++ b ++ "_for_" ++ sp) = none
          · rw [if_pos ⟨rfl, ha⟩, if_pos ⟨rfl, by simpa [hs] using ha⟩]; rfl
          · rw [if_neg (fun h => ha h.2), if_neg (fun h => ha (fun sp hsp => h.2 sp (by simp [hsp])))]

/-- None everywhere. -/
def AllNone (tab : Table F) : Prop := ∀ e ∈ tab, e.2 = none

theorem put_none {tab : Table F} (h : AllNone tab) (t : Int) (sp : String) : put tab t sp none = tab := by
  unfold put
  conv_rhs => rw [← List.map_id tab]
  refine List.map_congr_left fun e he => ?_
  split
  · have := h e he
    obtain ⟨a, b⟩ := e
    cases this
    rfl
  · rfl

theorem puts_none {tab : Table F} (h : AllNone tab) (t : Int) (sps : List String) :
    sps.foldl (fun tab sp => put tab t sp none) tab = tab := by
  induction sps with
  | nil => rfl
  | cons sp sps ih => rw [List.foldl_cons, put_none h, ih]

/-- Nothing is provided for a name and the species. -/
def Nothing (cb : Callbacks F) (species : List String) (b : String) : Prop :=
  cb ("default_bc_at_" ++ b) = none ∧ cb "default_bc" = none ∧ ∀ sp ∈ species, cb ("bc_at_" ++ b ++ "_for_" ++ sp) = none

theorem loopTags_none (cb : Callbacks F) (dict : List (String × Int)) (species : List String) {tab : Table F} (ht : AllNone tab)
    (ts : List Int) (hts : ∀ t ∈ ts, ∃ b, invName dict t = some b ∧ (species ≠ [] → Nothing cb species b)) :
    loopTags cb dict species (match cb "default_bc" with | some f => some f | none => none) ts tab = .ok tab := by
  induction ts with
  | nil => rfl
  | cons t ts ih =>
    obtain ⟨b, hb, hn⟩ := hts t (by simp)
    rw [loopTags, hb]
    dsimp only
    rw [loopSpecies_eq]
    by_cases he : species = []
    · rw [if_pos he]
      exact ih (fun t h => hts t (by simp [h]))
    · obtain ⟨h1, h2, h3⟩ := hn he
      rw [if_neg he, if_pos ⟨by rw [h1, h2], h3⟩, puts_none ht]
      exact ih (fun t h => hts t (by simp [h]))

theorem loopTags_name (cb : Callbacks F) (dict : List (String × Int)) (species : List String) (hs : species ≠ []) {tab : Table F} (ht : AllNone tab)
    (ts : List Int) (hts : ∀ t ∈ ts, ∃ b, invName dict t = some b) (hex : ∃ t ∈ ts, ∃ b, invName dict t = some b ∧ ¬ Nothing cb species b) :
    loopTags cb dict species (match cb "default_bc" with | some f => some f | none => none) ts tab = .error .name := by
  induction ts with
  | nil => obtain ⟨t, h, -⟩ := hex; cases h
  | cons t ts ih =>
    obtain ⟨b, hb⟩ := hts t (by simp)
    rw [loopTags, hb]
    dsimp only
    rw [loopSpecies_eq, if_neg hs]
    by_cases hn : Nothing cb species b
    · obtain ⟨h1, h2, h3⟩ := id hn
      rw [if_pos ⟨by rw [h1, h2], h3⟩, puts_none ht]
      refine ih (fun t h => hts t (by simp [h])) ?_
      obtain ⟨t', ht', b', hb', hn'⟩ := hex
      rcases List.mem_cons.1 ht' with rfl | ht'
      · rw [hb] at hb'; cases hb'; exact absurd hn hn'
      · exact ⟨t', ht', b', hb', hn'⟩
    · rw [if_neg]
      · rfl
      · rintro ⟨h1, h3⟩
        refine hn ⟨?_, ?_, h3⟩
        · cases h : cb ("default_bc_at_" ++ b) with
          | none => rfl
          | some f => rw [h] at h1; cases h1
        · cases h : cb ("default_bc_at_" ++ b) with
          | none =>
            rw [h] at h1
            cases h' : cb "default_bc" with
            | none => rfl
            | some f => rw [h'] at h1; cases h1
          | some f => rw [h] at h1; cases h1

theorem empty_none (ts : List Int) (species : List String) : AllNone (emptyTable (F := F) ts species) := by
  intro e he
  simp only [emptyTable, List.mem_flatMap, List.mem_map] at he
  obtain ⟨t, -, sp, -, rfl⟩ := he
  rfl

end MeshSources

open MeshSources
variable {F : Type}

/-- C123, false.  If the user provides a function for some region and some species, by any of the three names, the table cannot be made:
a NameError is raised. -/
theorem C123_false_provided (cb : Callbacks F) {dict : List (String × Int)} {species : List String} {t : Int} {b sp : String}
    (ht : TagOf dict t b) (hs : sp ∈ species)
    (h : cb ("bc_at_" ++ b ++ "_for_" ++ sp) ≠ none ∨ cb ("default_bc_at_" ++ b) ≠ none ∨ cb "default_bc" ≠ none) :
    create cb (some dict) species = .error .name := by
  have hmem : ∀ {l : List (String × Int)} {t : Int} {b : String}, TagOf l t b → (b, t) ∈ l := by
    intro l t b h
    induction h with
    | here h => exact List.mem_cons_self
    | there e h ih => exact List.mem_cons_of_mem _ ih
  refine loopTags_name cb dict species (fun h => by rw [h] at hs; cases hs) (empty_none _ _) _ ?_ ?_
  · intro t' ht'
    exact invName_some ((tags_mem dict t').1 ht')
  · refine ⟨t, (tags_mem dict t).2 ⟨b, hmem ht⟩, b, invName_of ht, ?_⟩
    rintro ⟨h1, h2, h3⟩
    rcases h with h | h | h
    · exact h (h3 sp hs)
    · exact h h1
    · exact h h2

/-- C123.  Exactly when the table is made: there is a dictionary, and there are no species, or no function is provided for
any region.  Then all its entries are None, one for each tag and species. -/
theorem C123_exact (cb : Callbacks F) (dict : Option (List (String × Int))) (species : List String) (tab : Table F) :
    create cb dict species = .ok tab ↔
      ∃ d, dict = some d ∧ tab = (tags d).flatMap (fun t => species.map (fun sp => ((t, sp), none))) ∧
        ∀ t b, TagOf d t b → ∀ sp ∈ species,
          cb ("bc_at_" ++ b ++ "_for_" ++ sp) = none ∧ cb ("default_bc_at_" ++ b) = none ∧ cb "default_bc" = none := by
  constructor
  · intro e
    cases dict with
    | none => cases e
    | some d =>
      have key : ∀ t b, TagOf d t b → ∀ sp ∈ species,
          cb ("bc_at_" ++ b ++ "_for_" ++ sp) = none ∧ cb ("default_bc_at_" ++ b) = none ∧ cb "default_bc" = none := by
        intro t b ht sp hs
        by_contra hn
        rw [C123_false_provided cb ht hs (by
          by_contra h
          simp only [not_or, not_not] at h
          exact hn h)] at e
        cases e
      refine ⟨d, rfl, ?_, key⟩
      have := loopTags_none cb d species (empty_none (F := F) (tags d) species) (tags d) (by
        intro t ht
        obtain ⟨b, hb⟩ := tagOf_of_mem ((tags_mem d t).1 ht)
        refine ⟨b, invName_of hb, fun hne => ?_⟩
        obtain ⟨sp, hsp⟩ := List.exists_mem_of_ne_nil species hne
        exact ⟨(key t b hb sp hsp).2.1, (key t b hb sp hsp).2.2, fun sp' h' => (key t b hb sp' h').1⟩)
      have e' := this.symm.trans e
      cases e'
      rfl
  · rintro ⟨d, rfl, rfl, key⟩
    refine loopTags_none cb d species (empty_none (F := F) (tags d) species) (tags d) ?_
    intro t ht
    obtain ⟨b, hb⟩ := tagOf_of_mem ((tags_mem d t).1 ht)
    refine ⟨b, invName_of hb, fun hne => ?_⟩
    obtain ⟨sp, hsp⟩ := List.exists_mem_of_ne_nil species hne
    exact ⟨(key t b hb sp hsp).2.1, (key t b hb sp hsp).2.2, fun sp' h' => (key t b hb sp' h').1⟩

-- With the functions of UserParticleSourceFunctions_C (UserParticles_1D.py:379-401) and any dictionary that is not empty the
-- table is not made; without functions it is made and useless.
example : create (fun s => if s = "default_bc" ∨ s = "default_bc_at_xmin" then some () else none) (some [("xmin", 1), ("hot", 2)]) ["e"] =
    .error .name := by decide

example : create (F := Unit) (fun _ => none) (some [("xmin", 1), ("hot", 2), ("cold", 1)]) ["e", "H"] =
    .ok [((1, "e"), none), ((1, "H"), none), ((2, "e"), none), ((2, "H"), none)] := by decide

example : TagOf [("xmin", 1), ("hot", 2)] 2 "hot" := .there _ (.here (by decide))

end Dt
