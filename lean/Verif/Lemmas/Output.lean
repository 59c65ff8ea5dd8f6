import Verif.Spec.Output
import Verif.Lemmas.Species

/-! # Lemmas about the particle output file -/

set_option linter.unusedSectionVars false

namespace Dt
namespace Output
open SAP (Reachable)
open Spec (Stores Held rows IsColumn entry)
variable {α V T : Type}

/-- The buffer has length `L` and starts with `done`, which ends at `aOff`. -/
def Filled (L : Nat) (done : List V) (st : List V × Nat) : Prop :=
  st.1.length = L ∧ st.2 = done.length ∧ st.1.take st.2 = done

theorem splice {L : Nat} {done vals : List V} {st : List V × Nat} (h : Filled L done st)
    (hl : done.length + vals.length ≤ L) :
    Filled L (done ++ vals)
      (st.1.take (min st.2 st.1.length) ++ vals ++ st.1.drop (min st.2 st.1.length + vals.length),
        st.2 + vals.length) := by
  obtain ⟨h1, h2, h3⟩ := h
  have hm : min st.2 st.1.length = st.2 := by omega
  rw [hm, h3]
  refine ⟨?_, ?_, ?_⟩
  · simp only [List.length_append, List.length_drop]; omega
  · simp only [List.length_append]; omega
  · simp only
    rw [List.take_append_of_le_length (by simp; omega), List.take_of_length_le (by simp; omega)]

theorem sliceSet_ok {L : Nat} {done vals : List V} {st : List V × Nat} (h : Filled L done st)
    (hl : done.length + vals.length ≤ L) :
    ∃ buf', sliceSet st.1 st.2 (st.2 + vals.length) vals = .ok buf' ∧
      Filled L (done ++ vals) (buf', st.2 + vals.length) := by
  have hs := splice h hl
  obtain ⟨h1, h2, h3⟩ := h
  have hm : vals.length = min (st.2 + vals.length) st.1.length - min st.2 st.1.length := by omega
  unfold sliceSet
  simp only [← hm, if_true]
  exact ⟨_, rfl, hs⟩

theorem sliceFill_ok {L n : Nat} {done : List V} {st : List V × Nat} (v : V) (h : Filled L done st)
    (hl : done.length + n ≤ L) :
    Filled L (done ++ List.replicate n v) (sliceFill st.1 st.2 (st.2 + n) v, st.2 + n) := by
  have hs := splice (vals := List.replicate n v) h (by simpa using hl)
  obtain ⟨h1, h2, h3⟩ := h
  have hm : min (st.2 + n) st.1.length - min st.2 st.1.length = n := by omega
  unfold sliceFill
  simp only [hm]
  simpa using hs

theorem fillPieces_ok (get : α → V) {L : Nat} (ps : List (List α)) {done : List V}
    {st : List V × Nat} (h : Filled L done st) (hl : done.length + ps.flatten.length ≤ L) :
    ∃ st', ps.foldlM (fun (st : List V × Nat) ps => do
        let buf' ← sliceSet st.1 st.2 (st.2 + ps.length) (ps.map get)
        return (buf', st.2 + ps.length)) st = (.ok st' : Except Err _) ∧
      Filled L (done ++ ps.flatten.map get) st' := by
  induction ps generalizing done st with
  | nil => exact ⟨st, rfl, by simpa using h⟩
  | cons p ps ih =>
    simp only [List.flatten_cons, List.length_append] at hl
    obtain ⟨buf', e, h'⟩ := sliceSet_ok (vals := p.map get) h (by simp; omega)
    simp only [List.length_map] at e h'
    obtain ⟨st', e', h''⟩ := ih h' (by rw [List.length_append, List.length_map]; omega)
    refine ⟨st', ?_, by simpa using h''⟩
    rw [List.foldlM_cons]
    simp only [e, bind, Except.bind, pure, Except.pure] at e' ⊢
    exact e'

/-- The attribute of the particles of one species. -/
def values (col : Col α V) (p : V × List α) : List V :=
  p.2.filterMap (fun x => entry col (p.1, x))

theorem values_index (p : V × List α) : values .speciesIndex p = List.replicate p.2.length p.1 := by
  unfold values
  simp only [entry]
  generalize p.2 = xs
  induction xs with
  | nil => rfl
  | cons x xs ih => simp [List.replicate_succ]

theorem values_field (get : α → V) (p : V × List α) : values (.field get true) p = p.2.map get := by
  unfold values
  simp only [entry]
  generalize p.2 = xs
  induction xs with
  | nil => rfl
  | cons x xs ih => simp

theorem held_count {sp : Species α V} {p : V × List α} (h : Held sp p) :
    sp.sap.getNumberOfItems = p.2.length := by
  rcases h.2 with ⟨_, hx⟩ | ⟨h0, hx⟩
  · exact hx.1
  · rw [h0, hx]; rfl

theorem fillSpecies_ok (col : Col α V) (hc : checkType col = .ok ()) {L : Nat} {sp : Species α V}
    {p : V × List α} (hh : Held sp p) {done : List V} {st : List V × Nat} (h : Filled L done st)
    (hl : done.length + p.2.length ≤ L) :
    ∃ sp' st', fillSpecies col sp st = .ok (sp', st') ∧ Held sp' p ∧
      Filled L (done ++ values col p) st' := by
  have hcount := held_count hh
  unfold fillSpecies
  by_cases h0 : sp.sap.getNumberOfItems = 0
  · rw [if_pos h0]
    have hnil : p.2 = [] := by
      have : p.2.length = 0 := by omega
      exact List.length_eq_zero_iff.1 this
    refine ⟨sp, st, rfl, hh, ?_⟩
    simpa [values, hnil] using h
  · rw [if_neg h0]
    obtain ⟨hidx, hst⟩ := hh
    rcases hst with ⟨hr, hx⟩ | ⟨hz, _⟩
    · cases col with
      | speciesIndex =>
        simp only
        rw [hcount, Int.toNat_natCast]
        refine ⟨sp, _, rfl, ⟨hidx, .inl ⟨hr, hx⟩⟩, ?_⟩
        rw [values_index, hidx]
        exact sliceFill_ok _ h hl
      | field get num =>
        cases num with
        | false => simp [checkType] at hc
        | true =>
          simp only
          obtain ⟨c, ps, e, hfl⟩ := Species.readLoop_stores hr hx
          obtain ⟨st', e', h'⟩ := fillPieces_ok get ps h (by rw [hfl]; exact hl)
          have e2 := SAP.outLoop_read (fun (st : List V × Nat) (ps : List α) => do
            let buf' ← sliceSet st.1 st.2 (st.2 + ps.length) (ps.map get)
            return (buf', st.2 + ps.length)) st e
          rw [e'] at e2
          simp only [Except.map] at e2
          rw [e2]
          have hr' : Reachable (sp.sap.withCur c) :=
            Species.outLoop_reachable _ (Species.readBody_reachable _) hr e2
          refine ⟨⟨sp.sap.withCur c, sp.index⟩, st', rfl,
            ⟨hidx, .inl ⟨hr', Species.stores_withCur hr hx c⟩⟩, ?_⟩
          rw [values_field, ← hfl]; exact h'
      | missing => simp [checkType] at hc
    · exact absurd hz h0

theorem fillAll_ok (col : Col α V) (hc : checkType col = .ok ()) {L : Nat} {sps : List (Species α V)}
    {pops : List (V × List α)} (hh : List.Forall₂ Held sps pops) {done : List V} {st : List V × Nat}
    (h : Filled L done st) (hl : done.length + (rows pops).length ≤ L) :
    ∃ sps' st', fillAll col sps st = .ok (sps', st') ∧ List.Forall₂ Held sps' pops ∧
      Filled L (done ++ pops.flatMap (values col)) st' := by
  induction hh generalizing done st with
  | nil => exact ⟨[], st, rfl, .nil, by simpa using h⟩
  | @cons sp p sps pops hd htl ih =>
    have hrows : (rows (p :: pops)).length = p.2.length + (rows pops).length := by
      simp [rows]
    obtain ⟨sp', st', e1, h1, h2⟩ := fillSpecies_ok col hc hd h (by omega)
    have hvl : (values col p).length = p.2.length := by
      cases col with
      | speciesIndex => simp [values_index]
      | field get num => cases num with
        | true => simp [values_field]
        | false => simp [checkType] at hc
      | missing => simp [checkType] at hc
    obtain ⟨sps', st'', e2, h3, h4⟩ := ih h2 (by rw [List.length_append, hvl]; omega)
    refine ⟨sp' :: sps', st'', ?_, .cons h1 h3, by simpa using h4⟩
    simp only [fillAll, e1, e2, bind, Except.bind, pure, Except.pure]

theorem isColumn_values (col : Col α V) (hc : checkType col = .ok ()) (pops : List (V × List α)) :
    IsColumn col (rows pops) (pops.flatMap (values col)) := by
  unfold IsColumn rows
  induction pops with
  | nil => rfl
  | cons p pops ih =>
    simp only [List.flatMap_cons, List.map_append, ih]
    congr 1
    cases col with
    | speciesIndex =>
      rw [values_index, List.map_replicate, List.map_map]
      exact List.map_eq_replicate_iff.2 (fun _ _ => rfl)
    | field get num => cases num with
      | true => simp [values_field, entry]
      | false => simp [checkType] at hc
    | missing => simp [checkType] at hc

theorem column_ok (a : Attr α V) (hc : checkType a.col = .ok ()) {sps : List (Species α V)}
    {pops : List (V × List α)} (hh : List.Forall₂ Held sps pops) (buf : List V)
    (hl : (rows pops).length ≤ buf.length) :
    ∃ sps' buf' data, column a sps buf = .ok (sps', buf', data) ∧ List.Forall₂ Held sps' pops ∧
      buf'.length = buf.length ∧ IsColumn a.col (rows pops) data := by
  obtain ⟨sps', st', e, h1, h2⟩ := fillAll_ok a.col hc hh (L := buf.length) (done := [])
    (st := (buf, 0)) ⟨rfl, rfl, by simp⟩ (by simpa using hl)
  obtain ⟨buf', aOff⟩ := st'
  obtain ⟨h3, h4, h5⟩ := h2
  refine ⟨sps', buf', buf'.take aOff, ?_, h1, h3, ?_⟩
  · simp only [column, hc, e, bind, Except.bind, pure, Except.pure]
  · dsimp only at h5
    rw [h5]
    exact isColumn_values a.col hc pops

theorem isColumn_length {col : Col α V} {rs : List (V × α)} {data : List V}
    (h : IsColumn col rs data) : data.length = rs.length := by
  have := congrArg List.length h
  simpa using this.symm

theorem addDataset_ok (gs : List (Group V T)) (g : Group V T) (name : String) (data : List V)
    (o : Bool) (h : name ∉ g.data.map (·.1)) :
    addDataset ⟨gs ++ [g], o⟩ name data =
      .ok ⟨gs ++ [{ g with data := g.data ++ [(name, data)] }], o⟩ := by
  simp [addDataset, h]

theorem columns_ok (as : List (Attr α V)) (hc : ∀ a ∈ as, checkType a.col = .ok ())
    {pops : List (V × List α)} (w : Writer V T) {sps : List (Species α V)}
    (hh : List.Forall₂ Held sps pops) (gs : List (Group V T)) (g : Group V T)
    (hf : w.file.groups = gs ++ [g]) (hl : (rows pops).length ≤ w.buf.length)
    (hnd : (g.data.map (·.1) ++ as.map Attr.name).Nodup) :
    ∃ sps' buf' cols, columns as w sps = ({ w with file := ⟨gs ++ [⟨g.num, g.time, g.data ++ cols⟩], w.file.isOpen⟩, buf := buf' }, sps', none) ∧
      List.Forall₂ Held sps' pops ∧ buf'.length = w.buf.length ∧
      List.Forall₂ (fun a c => c.1 = a.name ∧ IsColumn a.col (rows pops) c.2) as cols := by
  induction as generalizing w sps g with
  | nil =>
    refine ⟨sps, w.buf, [], ?_, hh, rfl, .nil⟩
    obtain ⟨⟨fg, fo⟩, _, _, _, _, _⟩ := w
    dsimp only at hf
    subst hf
    simp [columns]
  | cons a as ih =>
    obtain ⟨sps', buf', data, e, h1, h2, h3⟩ := column_ok a (hc a (by simp)) hh w.buf hl
    have hname : a.name ∉ g.data.map (·.1) := by
      intro hmem
      rw [List.map_cons, List.nodup_append] at hnd
      exact hnd.2.2 _ hmem _ (by simp) rfl
    have e2 := addDataset_ok gs g a.name data w.file.isOpen hname
    have hfile : w.file = ⟨gs ++ [g], w.file.isOpen⟩ := by
      rw [← hf]
    obtain ⟨sps'', buf'', cols, e3, h4, h5, h6⟩ := ih (fun a ha => hc a (List.mem_cons_of_mem _ ha))
      { w with buf := buf', file := ⟨gs ++ [⟨g.num, g.time, g.data ++ [(a.name, data)]⟩], w.file.isOpen⟩ }
      h1 { g with data := g.data ++ [(a.name, data)] } rfl (by simp only; omega)
      (by simpa [List.append_assoc] using hnd)
    refine ⟨sps'', buf'', (a.name, data) :: cols, ?_, h4, by simpa using h5.trans h2, .cons ⟨rfl, h3⟩ h6⟩
    simp only [columns, e]
    rw [hfile, e2]
    simp only
    simp only at e3
    rw [e3]
    simp [List.append_assoc]

theorem totalCount_eq {sps : List (Species α V)} {pops : List (V × List α)}
    (hh : List.Forall₂ Held sps pops) : totalCount sps = (rows pops).length := by
  unfold totalCount
  have : ∀ n : Int, sps.foldl (fun n sp => n + sp.sap.getNumberOfItems) n =
      n + (rows pops).length := by
    induction hh with
    | nil => intro n; simp [rows]
    | @cons sp p sps pops hd htl ih =>
      intro n
      rw [List.foldl_cons, ih, held_count hd]
      have hrows : (rows (p :: pops)).length = p.2.length + (rows pops).length := by
        simp [rows]
      rw [hrows]; push_cast; ring
  rw [this]; simp

theorem growBuffer_ok (w : Writer V T) (total : Nat) (junk : V) (hs : 0 < w.segLength)
    (hb : w.buf.length = w.bufLength) :
    total ≤ (growBuffer w total junk).buf.length ∧
      (growBuffer w total junk).buf.length = (growBuffer w total junk).bufLength ∧
      (growBuffer w total junk).file = w.file ∧ (growBuffer w total junk).counter = w.counter ∧
      (growBuffer w total junk).lastStep = w.lastStep ∧
      (growBuffer w total junk).segLength = w.segLength := by
  unfold growBuffer
  split
  · rename_i hgt
    refine ⟨?_, by simp, rfl, rfl, rfl, rfl⟩
    simp only [List.length_replicate]
    have h1 : (1 + (total : Int).fdiv w.segLength).toNat = 1 + total / w.segLength := by
      have h2 : (total : Int).fdiv w.segLength = ((total / w.segLength : Nat) : Int) := by
        rw [Int.fdiv_eq_ediv_of_nonneg _ (by omega)]; rfl
      rw [h2]; generalize total / w.segLength = q; omega
    rw [h1, Nat.add_mul, one_mul]
    have := Nat.div_add_mod total w.segLength
    have h3 := Nat.mod_lt total hs
    rw [Nat.mul_comm] at this
    omega
  · rename_i hgt
    exact ⟨by omega, hb, rfl, rfl, rfl, rfl⟩

end Output
end Dt
