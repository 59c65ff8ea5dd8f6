import Verif.Props.Output

/-! # Which requested attributes are accepted, and which can be written

C57, further: the check made when the output is set up accepts exactly the requests whose attributes
all exist; a write succeeds exactly when moreover all are numbers and none is requested twice. -/

namespace Dt

open Output
open Spec (Held)

variable {α V T : Type}

/-- The attribute exists: it is the species number or a field of the particle record. -/
def Available : Col α V → Prop
  | .speciesIndex => True
  | .field _ _ => True
  | .missing => False

/-- The attribute exists and is a number. -/
def IsNumber : Col α V → Prop
  | .speciesIndex => True
  | .field _ numeric => numeric = true
  | .missing => False

/-- The check accepts exactly the requests all of whose attributes exist; otherwise it raises
`RuntimeError`. -/
theorem C57_check_exact (attrs : List (Attr α V)) :
    (checkParameters attrs = .ok () ↔ ∀ a ∈ attrs, Available a.col) ∧
      (checkParameters attrs = .error .runtime ↔ ∃ a ∈ attrs, ¬ Available a.col) := by
  induction attrs with
  | nil => simp [checkParameters]
  | cons a as ih =>
    obtain ⟨n, c⟩ := a
    cases c <;> simp [checkParameters, Available, ih]

theorem checkType_ok_iff (c : Col α V) : checkType c = .ok () ↔ IsNumber c := by
  cases c with
  | speciesIndex => simp [checkType, IsNumber]
  | missing => simp [checkType, IsNumber]
  | field g b => cases b <;> simp [checkType, IsNumber]

/-- The loop on the attributes ends without an exception only if all attributes are numbers, and
their names are new and distinct. -/
theorem columns_none (as : List (Attr α V)) (w : Writer V T) (sps : List (Output.Species α V))
    (gs : List (Group V T)) (g : Group V T) (hg : w.file.groups = gs ++ [g])
    (h : (columns as w sps).2.2 = none) :
    (∀ a ∈ as, IsNumber a.col) ∧ (as.map Attr.name).Nodup ∧
      ∀ a ∈ as, a.name ∉ g.data.map (·.1) := by
  induction as generalizing w sps g with
  | nil => simp
  | cons a as ih =>
    simp only [columns] at h
    split at h
    · simp at h
    · rename_i sps' buf' data hcol
      have hnum : IsNumber a.col := by
        rw [← checkType_ok_iff]
        unfold column at hcol
        cases hc : checkType a.col with
        | ok u => rfl
        | error e => rw [hc] at hcol; simp [bind, Except.bind] at hcol
      split at h
      · simp at h
      · rename_i f hf
        unfold addDataset at hf
        rw [hg] at hf
        simp only [List.reverse_append, List.reverse_cons, List.reverse_nil, List.nil_append,
          List.singleton_append] at hf
        split at hf
        · simp at hf
        · rename_i hnew
          simp only [Except.ok.injEq] at hf
          subst hf
          obtain ⟨h1, h2, h3⟩ := ih _ _ { g with data := g.data ++ [(a.name, data)] }
            (by simp) h
          refine ⟨?_, ?_, ?_⟩
          · intro b hb
            rcases List.mem_cons.1 hb with rfl | hb
            · exact hnum
            · exact h1 b hb
          · rw [List.map_cons, List.nodup_cons]
            refine ⟨?_, h2⟩
            intro hm
            obtain ⟨b, hb, hbn⟩ := List.mem_map.1 hm
            have := h3 b hb
            simp [hbn] at this
          · intro b hb
            rcases List.mem_cons.1 hb with rfl | hb
            · exact hnew
            · have := h3 b hb
              simp only [List.map_append, List.mem_append, not_or] at this
              exact this.1

/-- A write at a new step into a file in good order succeeds exactly if every requested attribute
exists and is a number, and none is requested twice: nothing else, neither the particles nor their
number nor what was written before, makes a write fail. -/
theorem C57_exact (attrs : List (Attr α V)) (junk : V) {w : Writer V T} (hw : w.Ready)
    {sps : List (Output.Species α V)} {pops : List (V × List α)}
    (hh : List.Forall₂ Held sps pops) (step : Int) (hs : step ≠ w.lastStep) (time : T)
    (close : Bool) :
    (write attrs junk w sps step time close).2.2 = none ↔
      (∀ a ∈ attrs, IsNumber a.col) ∧ (attrs.map Attr.name).Nodup := by
  constructor
  · intro h
    have hnum : w.counter ∉ w.file.groups.map Group.num := by rw [hw.nums]; simp
    have hadd : addGroup w.file w.counter time =
        .ok ⟨w.file.groups ++ [⟨w.counter, time, []⟩], w.file.isOpen⟩ := by
      simp only [addGroup, hw.isOpen, hnum]; simp
    simp only [write, hs, if_false, hadd] at h
    split at h
    · simp at h
    · rename_i w2 sps2 hc
      have hgr : (growBuffer { w with file := ⟨w.file.groups ++ [⟨w.counter, time, []⟩],
          w.file.isOpen⟩ } (totalCount sps) junk).file.groups =
          w.file.groups ++ [⟨w.counter, time, []⟩] := by
        unfold growBuffer; split <;> rfl
      obtain ⟨h1, h2, -⟩ := columns_none attrs _ sps _ _ hgr (by rw [hc])
      exact ⟨h1, h2⟩
  · rintro ⟨h1, h2⟩
    obtain ⟨w', sps', cols, e, -⟩ := C41_file_holds_particles attrs
      ⟨fun a ha => (checkType_ok_iff _).2 (h1 a ha), h2⟩ junk hw hh step hs time close
    rw [e]

/-- A request that passes the check fails to be written exactly if it contains an attribute that is
not a number, or one requested twice. -/
theorem C57_accepted_fails (attrs : List (Attr α V)) (hc : checkParameters attrs = .ok ()) (junk : V)
    {w : Writer V T} (hw : w.Ready) {sps : List (Output.Species α V)} {pops : List (V × List α)}
    (hh : List.Forall₂ Held sps pops) (step : Int) (hs : step ≠ w.lastStep) (time : T)
    (close : Bool) :
    (write attrs junk w sps step time close).2.2 ≠ none ↔
      (∃ a ∈ attrs, ∃ get, a.col = .field get false) ∨ ¬ (attrs.map Attr.name).Nodup := by
  rw [ne_eq, C57_exact attrs junk hw hh step hs time close, not_and_or]
  refine or_congr ?_ Iff.rfl
  push Not
  refine exists_congr fun a => and_congr_right fun ha => ?_
  have hex := (C57_check_exact attrs).1.1 hc a ha
  cases hcol : a.col with
  | speciesIndex => simp [IsNumber]
  | missing => rw [hcol] at hex; exact hex.elim
  | field g b => cases b <;> simp [IsNumber]

/-- An unknown attribute in second place is noticed. -/
example : checkParameters ([⟨"x", .field (fun p => p.2.1) true⟩, ⟨"temp", .missing⟩] :
    List (Attr Fld.Dep ℚ)) = .error .runtime :=
  (C57_check_exact _).2.2 ⟨⟨"temp", .missing⟩, by simp, id⟩

/-- A field that is not a number is accepted and cannot be written; the demo request is written. -/
example : (write ([⟨"x", .field (fun p => p.2.1) true⟩, ⟨"flag", .field (fun p => p.2.1) false⟩] :
    List (Attr Fld.Dep ℚ)) 0 (newWriter 1 100 0 : Writer ℚ Nat)
    [⟨Fld.demoStore, 1⟩, ⟨SAP.new 2 (0, 0, 0), 2⟩] 1 1 false).2.2 ≠ none :=
  (C57_accepted_fails _ rfl 0 (newWriter_ready 1 100 (by decide) 0) demoHeld 1 (by decide) 1 false).2
    (Or.inl ⟨⟨"flag", .field (fun p => p.2.1) false⟩, by simp, _, rfl⟩)

example : (write demoOut 0 (newWriter 1 100 0 : Writer ℚ Nat)
    [⟨Fld.demoStore, 1⟩, ⟨SAP.new 2 (0, 0, 0), 2⟩] 1 1 false).2.2 = none :=
  (C57_exact demoOut 0 (newWriter_ready 1 100 (by decide) 0) demoHeld 1 (by decide) 1 false).2
    ⟨by intro a ha; simp [demoOut] at ha; rcases ha with rfl | rfl <;> simp [IsNumber], by decide⟩

end Dt
