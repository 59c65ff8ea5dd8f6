import Verif.Lemmas.Output
import Verif.Props.Species

/-!
# Properties of the particle output file (C41, C42, C54, C57, C58)
-/

set_option linter.unusedSectionVars false

namespace Dt
open SAP (Reachable)
open Output
open Spec (Stores Held rows IsColumn entry newSteps)
variable {α V T : Type}

/-- The state between two writes: the file is open and its groups are numbered 0..counter-1; the
buffer has the recorded length. -/
structure Output.Writer.Ready (w : Writer V T) : Prop where
  seg : 0 < w.segLength
  buf : w.buf.length = w.bufLength
  isOpen : w.file.isOpen = true
  nums : w.file.groups.map Group.num = List.range w.counter

theorem newWriter_ready (n sl : Nat) (hs : 0 < sl) (junk : V) :
    (newWriter n sl junk : Writer V T).Ready :=
  ⟨hs, by simp [newWriter], rfl, rfl⟩

/-- The attributes are numeric fields or the species number, with distinct names. -/
def GoodAttrs (attrs : List (Attr α V)) : Prop :=
  (∀ a ∈ attrs, checkType a.col = .ok ()) ∧ (attrs.map Attr.name).Nodup

/-! ### C41 -/

/-- A write at a new step appends one group, numbered by the counter, with one dataset per
requested attribute.  Row i of every dataset is the attribute of the i-th particle, counted through
all species in order and through each species in storage order; so all have the length
`get_total_particle_count`.  In particular the buffer is always large enough. The file keeps its
other groups and the containers their particles. -/
theorem C41_file_holds_particles (attrs : List (Attr α V)) (ha : GoodAttrs attrs) (junk : V)
    {w : Writer V T} (hw : w.Ready) {sps : List (Output.Species α V)} {pops : List (V × List α)}
    (hh : List.Forall₂ Held sps pops) (step : Int) (hs : step ≠ w.lastStep) (time : T) (close : Bool) :
    ∃ w' sps' cols, write attrs junk w sps step time close = (w', sps', none) ∧
      w'.file.groups = w.file.groups ++ [⟨w.counter, time, cols⟩] ∧
      List.Forall₂ (fun a c => c.1 = a.name ∧ IsColumn a.col (rows pops) c.2) attrs cols ∧
      (∀ c ∈ cols, (c.2.length : Int) = totalCount sps) ∧
      List.Forall₂ Held sps' pops ∧ w'.lastStep = step ∧ w'.file.isOpen = !close ∧
      (close = false → w'.Ready) ∧ w'.counter = w.counter + 1 := by
  have hnum : w.counter ∉ w.file.groups.map Group.num := by rw [hw.nums]; simp
  have hadd : addGroup w.file w.counter time =
      .ok ⟨w.file.groups ++ [⟨w.counter, time, []⟩], w.file.isOpen⟩ := by
    simp only [addGroup, hw.isOpen, hnum]; simp
  obtain ⟨g1, g2, g3, g4, g5, g6⟩ := growBuffer_ok
    { w with file := ⟨w.file.groups ++ [⟨w.counter, time, []⟩], w.file.isOpen⟩ }
    (rows pops).length junk hw.seg hw.buf
  generalize hW : growBuffer
    { w with file := ⟨w.file.groups ++ [⟨w.counter, time, []⟩], w.file.isOpen⟩ }
    (rows pops).length junk = W at g1 g2 g3 g4 g5 g6
  obtain ⟨sps', buf', cols, e, h1, h2, h3⟩ := columns_ok attrs ha.1 W hh w.file.groups
    ⟨w.counter, time, []⟩ (by rw [g3]) g1 (by simpa using ha.2)
  have hlen : ∀ c ∈ cols, (c.2.length : Int) = totalCount sps := by
    intro c hc
    rw [totalCount_eq hh]
    clear e
    induction h3 with
    | nil => simp at hc
    | cons hd htl ih =>
      rcases List.mem_cons.1 hc with rfl | hc
      · rw [isColumn_length hd.2]
      · exact ih ⟨fun a h => ha.1 a (List.mem_cons_of_mem _ h), (List.nodup_cons.1 ha.2).2⟩ hc
  refine ⟨{ W with
      file := ⟨w.file.groups ++ [⟨w.counter, time, cols⟩], W.file.isOpen && !close⟩
      buf := buf', counter := W.counter + 1, lastStep := step }, sps', cols, ?_, rfl, h3, hlen, h1,
      rfl, ?_, ?_, ?_⟩
  · unfold write
    rw [if_neg hs, hadd]
    simp only [totalCount_eq hh, hW, e]
    simp
  · simp [g3, hw.isOpen]
  · rintro rfl
    refine ⟨by simpa [g6] using hw.seg, ?_, ?_, ?_⟩
    · simp only [h2, g2]
    · simp [g3, hw.isOpen]
    · simp only [g4, List.map_append, hw.nums, List.map_cons, List.map_nil]
      rw [List.range_succ]
  · simp [g4]

/-- Two species (one of them empty), positions and species numbers. -/
def demoOut : List (Attr Fld.Dep ℚ) := [⟨"x", .field (fun p => p.2.1) true⟩, ⟨"species_index", .speciesIndex⟩]

theorem demoOut_good : GoodAttrs demoOut := by
  constructor
  · intro a ha
    simp only [demoOut, List.mem_cons, List.not_mem_nil, or_false] at ha
    rcases ha with rfl | rfl <;> rfl
  · decide +kernel

theorem demoHeld : List.Forall₂ Held [⟨Fld.demoStore, 1⟩, ⟨SAP.new 2 (0, 0, 0), (2 : ℚ)⟩]
    [((1 : ℚ), Fld.demoPop), (2, [])] :=
  .cons ⟨rfl, .inl ⟨Fld.demoStore_reachable, Fld.demoStore_stores⟩⟩
    (.cons ⟨rfl, .inr ⟨by decide, rfl⟩⟩ .nil)

/-- The buffer of two segments of one particle each is enlarged. -/
example : ((write demoOut 0 (newWriter 2 1 0 : Writer ℚ Nat)
    [⟨Fld.demoStore, 1⟩, ⟨SAP.new 2 (0, 0, 0), 2⟩] 5 7 false).1.file.groups.map
      (fun g => (g.num, g.time, g.data))) =
    [(0, 7, [("x", [1/4, 3/2, 1/2]), ("species_index", [1, 1, 1])])] := by decide +kernel

/-! ### C42 -/

/-- A call of `write_particles_to_file` without `close_flag`. -/
structure Output.Call (S T : Type) where
  step : Int
  time : T
  sps : S

/-- A sequence of calls; stops at the first exception. -/
def writeAll (attrs : List (Attr α V)) (junk : V) :
    Writer V T → List (Call (List (Output.Species α V)) T) → Writer V T × Option Err
  | w, [] => (w, none)
  | w, c :: cs =>
    match write attrs junk w c.sps c.step c.time false with
    | (w', _, none) => writeAll attrs junk w' cs
    | (w', _, some e) => (w', some e)

/-- The group of a call. -/
def GroupOf (attrs : List (Attr α V)) (c : Call (List (V × List α)) T) (g : Group V T) : Prop :=
  g.time = c.time ∧
    List.Forall₂ (fun a d => d.1 = a.name ∧ IsColumn a.col (rows c.sps) d.2) attrs g.data

theorem newSteps_forall₂ {β γ : Type} {R : β → γ → Prop} {f : β → Int} {g : γ → Int}
    (hfg : ∀ b c, R b c → f b = g c) {bs : List β} {cs : List γ} (h : List.Forall₂ R bs cs)
    (last : Int) : List.Forall₂ R (newSteps f last bs) (newSteps g last cs) := by
  induction h generalizing last with
  | nil => exact .nil
  | cons hd htl ih =>
    simp only [newSteps, hfg _ _ hd]
    split
    · exact ih _
    · exact .cons hd (ih _)

/-- Any sequence of calls writes one group for every call whose step differs from the step written
last; the groups are numbered consecutively and hold the particles at the time of the call. -/
theorem C42_groups (attrs : List (Attr α V)) (ha : GoodAttrs attrs) (junk : V)
    (calls : List (Call (List (Output.Species α V)) T)) (specs : List (Call (List (V × List α)) T))
    (h : List.Forall₂ (fun c d => c.step = d.step ∧ c.time = d.time ∧
      List.Forall₂ Held c.sps d.sps) calls specs) {w : Writer V T} (hw : w.Ready) :
    ∃ w' gs, writeAll attrs junk w calls = (w', none) ∧ w'.Ready ∧
      w'.file.groups = w.file.groups ++ gs ∧
      List.Forall₂ (GroupOf attrs) (newSteps Call.step w.lastStep specs) gs ∧
      gs.map Group.num = (List.range gs.length).map (w.counter + ·) := by
  induction h generalizing w with
  | nil => exact ⟨w, [], rfl, hw, by simp, .nil, rfl⟩
  | @cons c d calls specs hd htl ih =>
    obtain ⟨h1, h2, h3⟩ := hd
    by_cases hs : c.step = w.lastStep
    · obtain ⟨w', gs, e, k⟩ := ih hw
      refine ⟨w', gs, ?_, ?_⟩
      · simp only [writeAll, write, if_pos hs]; exact e
      · simp only [newSteps]
        rw [if_pos (h1 ▸ hs)]; exact k
    · obtain ⟨w1, sps', cols, e, g1, g2, -, -, g3, -, g4, g5⟩ :=
        C41_file_holds_particles attrs ha junk hw h3 c.step hs c.time false
      obtain ⟨w', gs, e', k1, k2, k3, k4⟩ := ih (g4 rfl)
      refine ⟨w', ⟨w.counter, c.time, cols⟩ :: gs, ?_, k1, ?_, ?_, ?_⟩
      · simp only [writeAll, e]; exact e'
      · rw [k2, g1]; simp
      · simp only [newSteps]
        rw [if_neg (h1 ▸ hs), ← h1, ← g3]
        exact .cons ⟨h2, g2⟩ k3
      · rw [List.map_cons, k4, g5, List.length_cons, List.range_succ_eq_map]
        simp only [List.map_cons, List.map_map, Nat.add_zero, List.cons.injEq, true_and]
        apply List.map_congr_left
        intro i _
        simp only [Function.comp]; omega

/-- For non-decreasing steps there is exactly one group per distinct step. -/
theorem newSteps_sorted {β : Type} (f : β → Int) (last : Int) (cs : List β)
    (hs : (cs.map f).Pairwise (· ≤ ·)) (hl : ∀ c ∈ cs, last ≤ f c) :
    ((newSteps f last cs).map f).Pairwise (· < ·) ∧
      ∀ k, k ∈ (newSteps f last cs).map f ↔ k ∈ cs.map f ∧ last < k := by
  induction cs generalizing last with
  | nil => simp [newSteps]
  | cons c cs ih =>
    rw [List.map_cons, List.pairwise_cons] at hs
    have hle : ∀ c' ∈ cs, f c ≤ f c' := fun c' hc' => hs.1 _ (List.mem_map_of_mem hc')
    have hlc := hl c (by simp)
    simp only [newSteps]
    split
    · rename_i heq
      obtain ⟨h1, h2⟩ := ih last hs.2 (fun c' hc' => hl c' (List.mem_cons_of_mem _ hc'))
      refine ⟨h1, fun k => ?_⟩
      rw [h2, List.map_cons, List.mem_cons]
      constructor
      · rintro ⟨h3, h4⟩; exact ⟨.inr h3, h4⟩
      · rintro ⟨h3 | h3, h4⟩
        · omega
        · exact ⟨h3, h4⟩
    · rename_i hne
      obtain ⟨h1, h2⟩ := ih (f c) hs.2 hle
      refine ⟨?_, fun k => ?_⟩
      · rw [List.map_cons, List.pairwise_cons]
        exact ⟨fun k hk => ((h2 k).1 hk).2, h1⟩
      · rw [List.map_cons, List.mem_cons, h2, List.map_cons, List.mem_cons]
        constructor
        · rintro (rfl | ⟨h3, h4⟩)
          · exact ⟨.inl rfl, by omega⟩
          · exact ⟨.inr h3, by omega⟩
        · rintro ⟨h3 | h3, h4⟩
          · exact .inl h3
          · have : f c ≤ k := by
              obtain ⟨c', hc', rfl⟩ := List.mem_map.1 h3
              exact hle c' hc'
            by_cases hk : k = f c
            · exact .inl hk
            · exact .inr ⟨h3, by omega⟩

/-- From a new file, with non-negative non-decreasing steps: one group per distinct step, numbered
0, 1, 2, ... in the order of the steps. -/
theorem C42_one_group_per_step (attrs : List (Attr α V)) (ha : GoodAttrs attrs) (junk : V)
    (nsp sl : Nat) (hsl : 0 < sl)
    (calls : List (Call (List (Output.Species α V)) T)) (specs : List (Call (List (V × List α)) T))
    (h : List.Forall₂ (fun c d => c.step = d.step ∧ c.time = d.time ∧
      List.Forall₂ Held c.sps d.sps) calls specs)
    (hs : (calls.map Call.step).Pairwise (· ≤ ·)) (h0 : ∀ c ∈ calls, 0 ≤ c.step) :
    ∃ w' written, writeAll attrs junk (newWriter nsp sl junk) calls = (w', none) ∧
      List.Forall₂ (GroupOf attrs) written w'.file.groups ∧
      w'.file.groups.map Group.num = List.range w'.file.groups.length ∧
      written.Sublist specs ∧
      (written.map Call.step).Pairwise (· < ·) ∧
      ∀ k, k ∈ written.map Call.step ↔ k ∈ calls.map Call.step := by
  obtain ⟨w', gs, e, -, h1, h2, h3⟩ := C42_groups attrs ha junk calls specs h
    (newWriter_ready nsp sl hsl junk)
  have hmap : specs.map Call.step = calls.map Call.step := by
    clear h2 h1 h3 e hs h0
    induction h with
    | nil => rfl
    | cons hd htl ih => simp only [List.map_cons, ih, hd.1]
  have h0' : ∀ c ∈ specs, (-1 : Int) ≤ c.step := by
    intro c hc
    have : c.step ∈ calls.map Call.step := hmap ▸ List.mem_map_of_mem hc
    obtain ⟨c', hc', he⟩ := List.mem_map.1 this
    have := h0 c' hc'; omega
  obtain ⟨k1, k2⟩ := newSteps_sorted Call.step (-1) specs (hmap ▸ hs) h0'
  have hg : w'.file.groups = gs := by rw [h1]; rfl
  refine ⟨w', newSteps Call.step (-1) specs, e, hg ▸ h2, ?_, ?_, k1, ?_⟩
  · rw [hg, h3]; simp [newWriter]
  · have : ∀ (last : Int) (l : List (Call (List (V × List α)) T)),
        (newSteps Call.step last l).Sublist l := by
      intro last l
      induction l generalizing last with
      | nil => exact .slnil
      | cons c l ih =>
        simp only [newSteps]
        split
        · exact .cons _ (ih _)
        · exact .cons_cons _ (ih _)
    exact this _ _
  · intro k
    rw [k2, hmap]
    constructor
    · exact fun hk => hk.1
    · intro hk
      obtain ⟨c', hc', rfl⟩ := List.mem_map.1 hk
      have := h0 c' hc'
      exact ⟨hk, by omega⟩

/-- Three calls, two at the same step. -/
example : ((writeAll demoOut 0 (newWriter 2 1 0 : Writer ℚ Nat)
    [⟨0, 0, [⟨Fld.demoStore, 1⟩]⟩, ⟨0, 0, [⟨Fld.demoStore, 1⟩]⟩, ⟨3, 3, []⟩]).1.file.groups.map
      (fun g => (g.num, g.time))) = [(0, 0), (1, 3)] := by decide +kernel

/-! ### C54 -/

/-- With `close_flag` the file is closed exactly if the step had not been written. Missing: closing
in the other case. -/
theorem C54_closes_partial (attrs : List (Attr α V)) (ha : GoodAttrs attrs) (junk : V)
    {w : Writer V T} (hw : w.Ready) {sps : List (Output.Species α V)} {pops : List (V × List α)}
    (hh : List.Forall₂ Held sps pops) (step : Int) (time : T) :
    ∃ w' sps', write attrs junk w sps step time true = (w', sps', none) ∧
      (w'.file.isOpen = false ↔ step ≠ w.lastStep) := by
  by_cases hs : step = w.lastStep
  · exact ⟨w, sps, by simp [write, hs], by simp [hw.isOpen, hs]⟩
  · obtain ⟨w', sps', cols, e, -, -, -, -, -, h, -⟩ :=
      C41_file_holds_particles attrs ha junk hw hh step hs time true
    exact ⟨w', sps', e, by simp [h, hs]⟩

/-- The end of a run whose last step has just been written: the closing call returns early and the
file stays open. -/
theorem C54_false_repeated_step : ∃ (w : Writer ℚ Nat),
    w = (write demoOut 0 (newWriter 1 100 0) [⟨Fld.demoStore, 1⟩] 10 10 false).1 ∧
      (write demoOut 0 w [⟨Fld.demoStore, 1⟩] 10 10 true).1.file.isOpen = true :=
  ⟨_, rfl, by decide +kernel⟩

/-! ### C57 -/

/-- A write that raises has left an incomplete group behind, and every later write raises too: an
attribute requested twice passes the check of the parameters and makes every write fail. -/
theorem C57_false_incomplete_group : ∃ attrs : List (Attr Fld.Dep ℚ),
    checkParameters attrs = .ok () ∧
    (let r := write attrs 0 (newWriter 1 100 0 : Writer ℚ Nat) [⟨Fld.demoStore, 1⟩] 1 1 false
     r.2.2 = some .value ∧ r.1.file.groups.map (fun g => g.data.map (·.1)) = [["x"]] ∧
     (write attrs 0 r.1 [⟨Fld.demoStore, 1⟩] 2 2 false).2.2 = some .value) :=
  ⟨[⟨"x", .field (fun p => p.2.1) true⟩, ⟨"x", .field (fun p => p.2.1) true⟩], rfl,
    by decide +kernel, by decide +kernel, by decide +kernel⟩

/-- In general, what a failed write does to the file: the groups written before are untouched, at
most one incomplete group, numbered by the counter, is appended.  Missing: no incomplete group. -/
theorem C57_old_groups_kept_partial (attrs : List (Attr α V)) (junk : V) (w : Writer V T)
    (sps : List (Output.Species α V)) (step : Int) (time : T) (close : Bool) :
    (write attrs junk w sps step time close).1.file.groups = w.file.groups ∨
      ∃ cols, (write attrs junk w sps step time close).1.file.groups =
        w.file.groups ++ [⟨w.counter, time, cols⟩] := by
  have hcols : ∀ (as : List (Attr α V)) (w : Writer V T) (sps : List (Output.Species α V))
      (gs : List (Group V T)) (g : Group V T), w.file.groups = gs ++ [g] →
      ∃ cols, (columns as w sps).1.file.groups = gs ++ [⟨g.num, g.time, cols⟩] := by
    intro as
    induction as with
    | nil => intro w sps gs g hw; exact ⟨g.data, hw⟩
    | cons a as ih =>
      intro w sps gs g hw
      simp only [columns]
      split
      · exact ⟨g.data, hw⟩
      · rename_i sps' buf' data hcol
        split
        · exact ⟨g.data, hw⟩
        · rename_i f hf
          unfold addDataset at hf
          rw [hw] at hf
          simp only [List.reverse_append, List.reverse_cons, List.reverse_nil, List.nil_append,
            List.singleton_append] at hf
          split at hf
          · cases hf
          · simp only [List.reverse_reverse, Except.ok.injEq] at hf
            exact ih { w with buf := buf', file := f } sps' gs
              ⟨g.num, g.time, g.data ++ [(a.name, data)]⟩ (by rw [← hf])
  have hgrow : ∀ (w : Writer V T) (n : Int), (growBuffer w n junk).file = w.file := by
    intro w n; unfold growBuffer; split <;> rfl
  unfold write
  split
  · exact .inl rfl
  · unfold addGroup
    split
    · exact .inl rfl
    · rename_i f hf
      split at hf
      · cases hf
      · split at hf
        · cases hf
        · simp only [Except.ok.injEq] at hf
          obtain ⟨cols, hc⟩ := hcols attrs (growBuffer { w with file := f } (totalCount sps) junk) sps
            w.file.groups ⟨w.counter, time, []⟩ (by rw [hgrow, ← hf])
          right
          refine ⟨cols, ?_⟩
          simp only
          split
          · rename_i heq; rw [heq] at hc; exact hc
          · rename_i heq; rw [heq] at hc; exact hc

/-! ### C58 -/

/-- After opening a new output file, a write is lost if the step equals the last one written to the
old file. -/
theorem C58_false_reopened : ∃ (w : Writer ℚ Nat),
    w = openFile (write demoOut 0 (newWriter 1 100 0) [⟨Fld.demoStore, 1⟩] 10 10 false).1 ∧
      (write demoOut 0 w [⟨Fld.demoStore, 1⟩] 10 10 false).2.2 = none ∧
      ((write demoOut 0 w [⟨Fld.demoStore, 1⟩] 10 10 false).1.file.groups.map Group.num) = [] :=
  ⟨_, rfl, by decide +kernel, by decide +kernel⟩

/-- At any other step the new file is written from group 0 on. Missing: the same step. -/
theorem C58_reopened_partial (attrs : List (Attr α V)) (ha : GoodAttrs attrs) (junk : V)
    {w : Writer V T} (hseg : 0 < w.segLength) (hbuf : w.buf.length = w.bufLength)
    {sps : List (Output.Species α V)} {pops : List (V × List α)}
    (hh : List.Forall₂ Held sps pops) (step : Int) (hs : step ≠ w.lastStep) (time : T) :
    ∃ w' sps' cols, write attrs junk (openFile w) sps step time false = (w', sps', none) ∧
      w'.file.groups = [⟨0, time, cols⟩] ∧
      List.Forall₂ (fun a c => c.1 = a.name ∧ IsColumn a.col (rows pops) c.2) attrs cols := by
  obtain ⟨w', sps', cols, e, h1, h2, -⟩ := C41_file_holds_particles attrs ha junk
    (w := openFile w) ⟨hseg, hbuf, rfl, rfl⟩ hh step hs time false
  exact ⟨w', sps', cols, e, by simpa [openFile] using h1, h2⟩

end Dt
