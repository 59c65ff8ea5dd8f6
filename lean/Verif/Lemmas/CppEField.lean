import Verif.Model.CppEField
import Verif.Lemmas.EField
import Verif.Lemmas.CppPass
import Mathlib.Tactic.Ring

/-! # Compiled movers: preparing fields per segment is the same as computing them per particle -/

set_option linter.unusedSectionVars false

namespace Dt
namespace CppMover
open SAP
open Mover (PInv advI PrepOk prepFrom prepFrom_ok take_seg_zero take_seg_succ pyGet_append_drop)
variable {σ ρ φ α : Type}

/-- The state before particle `ip` of "in" segment `c`. -/
def At (sl : Nat) (o : Bool) (a : SA α) (c i : Nat) (ps : CPass σ α) : Prop :=
  ∃ ys, PInv sl o a c ps.py ys ∧ ps.indexChange = decide (ys.length ≠ i) ∧ ys.length ≤ i

/-- One particle. -/
theorem moveOne_sim (all : List φ) (adv : φ → Adv σ α) {sl : Nat} {o : Bool} {a : SA α} {c : Nat}
    {ps : CPass σ α} {ys : List α} (h : PInv sl o a c ps.py ys) (ip : Nat) (fs : List φ)
    (hfs : cGet fs ip = pyGet all ((c * sl + ip : Nat) : Int)) (vin : View) :
    moveOne (fun _ => false) (fun st iIn iOut ch p => do
        let f ← cGet fs ip
        adv f st iIn iOut ch p) vin ip ps = moveOne (fun _ => false) (advI all adv) vin ip ps := by
  unfold moveOne
  simp only [bind, Except.bind]
  cases viewGet ps.s vin ip with
  | error e => rfl
  | ok p =>
    simp only [Bool.false_eq_true, if_false]
    have hpos : 0 < ps.s.sl := h.inv.out.pos
    obtain ⟨qs, e1, h1, hlt, hst, hic1⟩ := Mover.nextOut_ok h
    obtain ⟨ps1, e1', rfl⟩ := nextOut_py hpos e1
    have hfi : (ps1.s.getFullIndices ip ps1.ipOut).1 = ((c * sl + ip : Nat) : Int) := by
      rw [← fullIndices_py]
      unfold SAP.getFullIndices
      have h2 := h1.inn
      have h4 := h1.sleq
      simp only [CPass.py] at h2 h4
      rw [h2, h4]
      push_cast
      rfl
    unfold moveKept
    rw [e1']
    simp only [bind, Except.bind, hfi, advI, hfs]

theorem moveOne_at (adv : Adv σ α) {sl : Nat} {o : Bool} {a : SA α} (ha : a.WF sl) {c ip : Nat}
    {ps ps' : CPass σ α} (h : At sl o a c (c * sl + ip) ps) (hip : ip < sl)
    (hx : c * sl + ip < (a.items sl).length)
    (e : moveOne (fun _ => false) adv ⟨!o, (c : Int)⟩ ip ps = .ok ps') :
    At sl o a c (c * sl + (ip + 1)) ps' := by
  obtain ⟨ys, h1, h2, h3⟩ := h
  have key := moveItems_ok (skip := fun _ => false) (adv := adv) ha 1 ip ps ys h1 (by omega)
    (by omega) h2 h3
  unfold Agree at key
  simp only [moveItems, bind, Except.bind, e] at key
  split at key
  · cases key
  · obtain ⟨ps2, e2, h4, -, h6, h7, -⟩ := key
    cases e2
    exact ⟨_, h4, h6, h7⟩

/-- A stretch of particles of a segment. -/
theorem moveItems_sim (all : List φ) (adv : φ → Adv σ α) {sl : Nat} {o : Bool} {a : SA α}
    (ha : a.WF sl) {c : Nat} (fs : List φ) (k : Nat) : ∀ (ip : Nat) (ps : CPass σ α),
    At sl o a c (c * sl + ip) ps → ip + k ≤ sl → c * sl + ip + k ≤ (a.items sl).length →
    (∀ j, ip ≤ j → j < ip + k → cGet fs (j : Nat) = pyGet all ((c * sl + j : Nat) : Int)) →
    moveItemsE adv ⟨!o, (c : Int)⟩ fs k ip ps =
        moveItems (fun _ => false) (advI all adv) ⟨!o, (c : Int)⟩ k ip ps ∧
      ∀ ps', moveItems (fun _ => false) (advI all adv) ⟨!o, (c : Int)⟩ k ip ps = .ok ps' →
        At sl o a c (c * sl + (ip + k)) ps' := by
  induction k with
  | zero =>
    intro ip ps h _ _ _
    refine ⟨rfl, ?_⟩
    intro ps' e; cases e; exact h
  | succ k ih =>
    intro ip ps h hip hx hfs
    have hsame := h
    obtain ⟨ys, h1, -, -⟩ := h
    simp only [moveItems, moveItemsE]
    rw [moveOne_sim all adv h1 ip fs (hfs ip (le_refl _) (by omega))]
    simp only [bind, Except.bind]
    cases e : moveOne (fun _ => false) (advI all adv) ⟨!o, (c : Int)⟩ ip ps with
    | error e => simp
    | ok ps' =>
      simp only
      obtain ⟨k1, k2⟩ := ih (ip + 1) ps' (moveOne_at _ ha hsame (by omega) (by omega) e) (by omega)
        (by omega) (fun j h1 h2 => hfs j (by omega) (by omega))
      refine ⟨k1, ?_⟩
      intro ps'' e2
      rw [show ip + (k + 1) = ip + 1 + k by omega]
      exact k2 ps'' e2

theorem at_arr {sl : Nat} {o : Bool} {a : SA α} {c i : Nat} {ps : CPass σ α}
    (h : At sl o a c i ps) : (ps.s.arr (!o)).segs = a.segs := by
  obtain ⟨ys, h1, -, -⟩ := h
  have h2 := h1.inn
  have h3 : ps.py.s.inSel = !o := by rw [h1.inv.sel, h1.osel]
  have h4 : ps.py.s.inA = (ps.s.arr (!o)).py := by
    unfold inA; rw [h3]; exact CSAP.py_arr ps.s (!o)
  rw [h4] at h2
  exact congrArg SA.segs h2

theorem cGet_eq {β : Type} {l : List β} {i : Nat} (h : i < l.length) : cGet l (i : Int) = .ok l[i] := by
  simp [cGet, h]

theorem cGet_append_drop {β : Type} (all fs l : List β) (m j : Nat) (h : all.drop m = fs ++ l)
    (hj : j < fs.length) : cGet fs (j : Nat) = pyGet all ((m + j : Nat) : Int) := by
  have h1 := pyGet_append_drop all fs l m j h hj
  rw [cGet_eq hj, ← pyGet_of_lt hj, h1]
  push_cast
  rfl

/-- The segment loop. -/
theorem moveSegs_sim {prep : ρ → List α → Nat → Except Err (ρ × List φ)} {I : ρ → Prop}
    {Ev Us : α → Prop} {Good : α → φ → Prop} {L : Nat} (hp : PrepOk prep I Ev Us Good L)
    (adv : φ → Adv σ α) {o : Bool} {a : SA α} (ha : a.WF L) (hlen : ∀ v ∈ a.segs, v.length = L)
    (hev : ∀ v ∈ a.segs, ∀ p ∈ v, Ev p) (h0 : 0 ≤ a.fao) (hfao : a.fao ≤ L) (all : List φ)
    (k : Nat) : ∀ (c fuel : Nat) (n : Int) (r : ρ) (ps : CPass σ α), At L o a c (c * L) ps →
    a.fnf = c + k →
    c + k < a.segs.length → n = (if k = 0 then a.fao else L) → (k = 0 → a.fao ≠ 0) → k < fuel → I r →
    (∀ p ∈ ((a.segs.drop c).flatten).take (k * L + a.fao.toNat), Us p) →
    ∀ r' l, prepFrom prep L a k c r = .ok (r', l) → all.drop (c * L) = l →
    moveSegsE prep adv fuel n (some ⟨!o, (c : Int)⟩) r ps =
      (moveSegs (fun _ => false) (advI all adv) fuel n (some ⟨!o, (c : Int)⟩) ps).map
        (fun x => (r', x)) := by
  induction k with
  | zero =>
    intro c fuel n r ps h hf hc hn hk hfu hI hus r' l hpf hall
    obtain ⟨fuel, rfl⟩ := Nat.exists_eq_succ_of_ne_zero (by omega : fuel ≠ 0)
    have hmem : a.segs[c] ∈ a.segs := List.getElem_mem _
    have hget : a.segs.getD c [] = a.segs[c] := by
      rw [List.getD_eq_getElem?_getD, List.getElem?_eq_getElem (by omega)]; rfl
    have hitl : (a.items L).length = c * L + a.fao.toNat := by
      have hh := ha.items_length
      rw [hf] at hh
      have hz : ((c : Int) + (0 : Nat)) * L + a.fao = ((c * L + a.fao.toNat : Nat) : Int) := by
        push_cast; rw [Int.toNat_of_nonneg h0]; ring
      rw [hz] at hh
      exact_mod_cast hh
    rw [if_pos rfl] at hn
    subst hn
    simp only [prepFrom, hget, if_neg (hk rfl)] at hpf
    simp only [moveSegs, moveSegsE, bind, Except.bind]
    rw [at_arr h, cGet_eq (by omega : c < a.segs.length)]
    simp only [hpf]
    obtain ⟨r2, fs2, h1, h2, h3⟩ := hp r a.segs[c] a.fao.toNat hI (hlen _ hmem) (by omega)
      (hev _ hmem) (fun p hp => hus p ((take_seg_zero hlen (by omega) (by omega)) ▸ hp))
    rw [hpf] at h1
    cases h1
    have hfl : l.length = a.fao.toNat := by
      rw [← h3.length_eq, List.length_take, hlen _ hmem]; omega
    obtain ⟨k1, k2⟩ := moveItems_sim all adv ha l a.fao.toNat 0 ps (by simpa using h) (by omega)
      (by omega) (by
      intro j _ hj
      exact cGet_append_drop all l [] (c * L) j (by rw [hall, List.append_nil]) (by omega))
    rw [k1]
    cases h4 : moveItems (fun _ => false) (advI all adv) ⟨!o, (c : Int)⟩ a.fao.toNat 0 ps with
    | error e => rfl
    | ok ps1 =>
      obtain ⟨ys, hs, -, -⟩ := k2 ps1 h4
      simp only
      obtain ⟨s', hn, -⟩ := nextIn_eq hs
      rw [hn, if_pos (by omega)]
      cases fuel <;> rfl
  | succ k ih =>
    intro c fuel n r ps h hf hc hn hk hfu hI hus r' l hpf hall
    obtain ⟨fuel, rfl⟩ := Nat.exists_eq_succ_of_ne_zero (by omega : fuel ≠ 0)
    have hmem : a.segs[c] ∈ a.segs := List.getElem_mem _
    have hget : a.segs.getD c [] = a.segs[c] := by
      rw [List.getD_eq_getElem?_getD, List.getElem?_eq_getElem (by omega)]; rfl
    have hitl : c * L + L ≤ (a.items L).length := by
      have hh := ha.items_length
      rw [hf] at hh
      have hz : ((c : Int) + (k + 1 : Nat)) * L + a.fao =
          ((c * L + L + k * L + a.fao.toNat : Nat) : Int) := by
        push_cast; rw [Int.toNat_of_nonneg h0]; ring
      rw [hz] at hh
      have : (a.items L).length = c * L + L + k * L + a.fao.toNat := by exact_mod_cast hh
      omega
    rw [if_neg (by omega)] at hn
    subst hn
    obtain ⟨r1, fs, h1, h2, h3⟩ := hp r a.segs[c] L hI (hlen _ hmem) (le_refl _) (hev _ hmem)
      (fun p hp => hus p (by rw [take_seg_succ hlen (by omega)]; exact List.mem_append_left _ hp))
    have hus' : ∀ p ∈ ((a.segs.drop (c + 1)).flatten).take (k * L + a.fao.toNat), Us p :=
      fun p hp => hus p (by rw [take_seg_succ hlen (by omega)]; exact List.mem_append_right _ hp)
    obtain ⟨r2, l2, h5, h6, h7⟩ := prepFrom_ok hp hlen hev h0 hfao k (c + 1) r1 (by omega) h2 hus'
    simp only [prepFrom, hget, h1, h5, Except.ok.injEq, Prod.mk.injEq] at hpf
    obtain ⟨rfl, rfl⟩ := hpf
    simp only [moveSegs, moveSegsE, bind, Except.bind]
    rw [at_arr h, cGet_eq (by omega : c < a.segs.length)]
    simp only [Int.toNat_natCast, h1]
    have hfl : fs.length = L := by
      rw [← h3.length_eq, List.length_take, hlen _ hmem]; omega
    obtain ⟨k1, k2⟩ := moveItems_sim all adv ha fs L 0 ps (by simpa using h) (by omega) (by omega) (by
      intro j _ hj
      exact cGet_append_drop all fs l2 (c * L) j hall (by omega))
    rw [k1]
    cases h4 : moveItems (fun _ => false) (advI all adv) ⟨!o, (c : Int)⟩ L 0 ps with
    | error e => rfl
    | ok ps1 =>
      obtain ⟨ys, hs, hic, hle⟩ := k2 ps1 h4
      simp only
      obtain ⟨s', hn, hs'⟩ := nextIn_eq hs
      have hat : At L o a (c + 1) ((c + 1) * L) ({ ps1 with s := s' } : CPass σ α) := by
        refine ⟨ys, hs', ?_, ?_⟩
        · simp only; rw [hic, Nat.succ_mul, Nat.zero_add]
        · rw [Nat.succ_mul]; rw [Nat.zero_add] at hle; exact hle
      rw [hn, if_neg (by omega)]
      have hall' : all.drop ((c + 1) * L) = l2 := by
        rw [Nat.succ_mul, ← List.drop_drop, hall, ← hfl, List.drop_left]
      have main := ih (c + 1) fuel (if k = 0 then a.fao else L) r1 { ps1 with s := s' } hat
        (by rw [hf]; push_cast; omega) (by omega) rfl
      by_cases hk0 : k = 0
      · subst hk0
        rw [if_pos (by omega)]
        by_cases hz : a.fao = 0
        · simp only [prepFrom, if_pos hz, Except.ok.injEq, Prod.mk.injEq] at h5
          obtain ⟨rfl, rfl⟩ := h5
          simp only [if_pos hz]
          cases fuel <;> rfl
        · rw [if_pos rfl] at main
          simp only [if_neg hz]
          exact main (fun _ => hz) (by omega) h2 hus' r2 l2 h5 hall'
      · rw [if_neg (by omega)]
        rw [if_neg hk0] at main
        exact main (fun h => absurd h hk0) (by omega) h2 hus' r2 l2 h5 hall'

/-- A whole pass: there is a list of fields, one for each particle stored, such that the pass is
the one in which every particle finds its field in the list. -/
theorem cppPass_sim {prep : ρ → List α → Nat → Except Err (ρ × List φ)} {I : ρ → Prop}
    {Ev Us : α → Prop} {Good : α → φ → Prop} {s : CSAP α} (hp : PrepOk prep I Ev Us Good s.sl)
    (adv : φ → Adv σ α) (hinv : s.py.Inv) (hne : s.py.contents ≠ [])
    (hev : ∀ v ∈ s.py.outA.segs, ∀ p ∈ v, Ev p)
    (hus : ∀ p ∈ s.py.contents, Us p) (r : ρ) (hI : I r) (st : σ) :
    ∃ all r', List.Forall₂ Good s.py.contents all ∧ I r' ∧
      cppPassE prep adv s r st =
        (cppPass (fun _ => false) (advI all adv) s st).map (fun x => (x.1, r', x.2)) := by
  have hW := hinv.out
  have hlen : ∀ v ∈ s.py.outA.segs, v.length = s.sl := fun v hv => hW.uni v hv
  obtain ⟨f, o', hf, ho', hfl, hol, hfl2, hle⟩ := hW.total
  have hol' : o' ≤ s.sl := hol
  have hcont : s.py.contents = (s.py.outA.segs.drop 0).flatten.take (f * s.sl + s.py.outA.fao.toNat) := by
    unfold contents SA.items
    rw [hf, ho']
    congr 1
  obtain ⟨r', all, hpf, hI', hgood⟩ := prepFrom_ok hp hlen hev (by omega) (by omega) f 0 r
    (by omega) hI (by rw [← hcont]; exact hus)
  rw [← hcont] at hgood
  refine ⟨all, r', hgood, hI', ?_⟩
  obtain ⟨s1, e, h1, h2, h3, h4, h5, h6, h7⟩ := initInoutLoop_nonempty hinv hne
  have hposs : 0 < s.sl := hinv.out.pos
  rw [initInout_py hposs] at e
  have es : s.initInoutLoop.1.py = s1 := congrArg Prod.fst e
  have ep : s.initInoutLoop.2 = (firstCount s.sl s.py.outA, some (⟨s1.inSel, 0⟩, ⟨s1.outSel, 0⟩)) :=
    congrArg Prod.snd e
  have hsel1 : (!s1.outSel) = s1.inSel := h7.sel.symm
  have hat : At s.sl s1.outSel s.py.outA 0 (0 * s.sl)
      (⟨s.initInoutLoop.1, ⟨s1.outSel, 0⟩, 0, 0, false, st⟩ : CPass σ α) := by
    refine ⟨[], ?_, by simp, by simp⟩
    unfold CPass.py
    simp only [es]
    refine ⟨h7, by simp [Synced, h6], h3, rfl, by simp only []; rw [h5]; rfl, by simp [h6],
      by simp [h6], by simp, by simp [h6], by simp, ?_⟩
    rw [if_neg (by simp only []; omega)]
    rfl
  have hfao : f = 0 → s.py.outA.fao ≠ 0 := by
    intro h8 h9
    exact hne ((contents_nil_iff hinv.out).2 ⟨by rw [hf, h8]; rfl, h9⟩)
  have hnseg : (s.arr s.outSel).nseg = s.py.outA.nseg := by
    rw [show s.py.outA = (s.arr s.outSel).py from CSAP.py_arr s s.outSel]; rfl
  have key := moveSegs_sim hp adv (o := s1.outSel) hinv.out hlen hev (by omega) (by omega) all f 0
    ((s.arr s.outSel).nseg + 1) (firstCount s.sl s.py.outA) r _ hat (by rw [hf]; simp) (by omega)
    (by unfold firstCount; rw [hf]; by_cases h : f = 0 <;> simp [h]) hfao
    (by rw [hnseg, hW.nseg]; omega) hI (by rw [← hcont]; exact hus) r' all hpf (by simp)
  rw [show ((0 : Nat) : Int) = 0 from rfl, hsel1] at key
  have einit : s.initInoutLoop = (s.initInoutLoop.1, (firstCount s.sl s.py.outA,
      some (⟨s1.inSel, 0⟩, ⟨s1.outSel, 0⟩))) := Prod.ext rfl ep
  unfold cppPass cppPassE
  rw [einit]
  simp only [bind, Except.bind, pure, Except.pure]
  rw [key]
  cases moveSegs (fun _ => false) (advI all adv) ((s.arr s.outSel).nseg + 1)
      (firstCount s.sl s.py.outA) (some ⟨s1.inSel, 0⟩)
      (⟨s.initInoutLoop.1, ⟨s1.outSel, 0⟩, 0, 0, false, st⟩ : CPass σ α) with
  | error e => rfl
  | ok ps' => rfl

end CppMover

namespace CppEField
open EField Mover
open EField (Evaluable)
variable {K : Type} [Field K] [DecidableEq K] {d : Nat} {α : Type}

/-- The scratch arrays fit a segment; the external field and the array of zeros are zero. -/
def ScratchOk (L : Nat) (scr : Scratch K d) : Prop :=
  scr.negE.length = L ∧ scr.ext = List.replicate L 0 ∧ scr.zero = List.replicate L 0

theorem interpolate_eq (F : α → Except Err (Vec K d)) (ps : List α) :
    ∀ (ip : Nat) (arr : List (Vec K d)), ip + ps.length ≤ arr.length →
    interpolate F ps ip arr = EField.interpolate F ps ip arr := by
  induction ps with
  | nil => intro ip arr _; rfl
  | cons p ps ih =>
    intro ip arr h
    simp only [List.length_cons] at h
    simp only [interpolate, EField.interpolate, bind, Except.bind]
    cases F p with
    | error e => rfl
    | ok v =>
      simp only
      rw [pySet_of_lt _ (by omega)]
      have : cSet arr (ip : Int) v = .ok (arr.set ip v) := by
        simp [cSet]; omega
      rw [this]
      exact ih (ip + 1) _ (by rw [List.length_set]; omega)

/-- What a particle finds. -/
def Good (fl : Fields K d α) (sOn : Bool) (p : α) (f : FieldAt K d) : Prop :=
  ∃ e, Spec.IsSolved fl.neg sOn p e ∧
    f.kick = (if fl.neg.isSome = true ∧ sOn = false then none else some e) ∧ f.ext = 0

theorem combine_zero (n : Nat) (arr : List (Vec K d)) {L : Nat} (h : arr.length = L) :
    combine (· + ·) n arr (List.replicate L 0) = arr := by
  subst h
  unfold combine
  have : List.zipWith (· + ·) (arr.take n) ((List.replicate arr.length (0 : Vec K d)).take n) =
      arr.take n := by
    apply List.ext_getElem
    · simp
    · intro i h1 h2; simp
  rw [this, List.take_append_drop]

theorem external_ok (fl : Fields K d α) {L n : Nat} {scr : Scratch K d} (h : ScratchOk L scr)
    (p : Eseg) (hp : p = .null → ¬ (fl.ext.isSome = true ∧ isOn fl.extSw fl.species = true)) :
    externalPart fl n (scr, p) = .ok (scr, p) := by
  unfold externalPart
  cases hx : fl.ext with
  | none => rfl
  | some F =>
    simp only
    by_cases hon : isOn fl.extSw fl.species = true
    · rw [if_pos hon]
      cases p with
      | null => exact absurd ⟨by rw [hx]; rfl, hon⟩ (hp rfl)
      | neg =>
        simp only
        rw [h.2.1, combine_zero n _ h.1]
        obtain ⟨-, h2, -⟩ := h
        cases scr; simp only at h2; subst h2; rfl
      | zero =>
        simp only
        have h3 := h.2.2
        rw [h.2.1, h3, combine_zero n _ (by simp)]
        obtain ⟨-, h2, h3⟩ := h
        cases scr; simp only at h2 h3; subst h2 h3; rfl
    · rw [if_neg hon]

theorem forall₂_mk {P : α → Vec K d → Prop} {fl : Fields K d α} {sOn : Bool}
    (hP : ∀ p e, P p e → Good fl sOn p ⟨some e, 0⟩) {ps : List α} {es : List (Vec K d)}
    (he : List.Forall₂ P ps es) : List.Forall₂ (Good fl sOn) ps
      (List.zipWith FieldAt.mk (es.map some) (List.replicate ps.length 0)) := by
  induction he with
  | nil => exact .nil
  | cons h1 h2 ih => exact .cons (hP _ _ h1) ih

theorem prepare_ok (fl : Fields K d α) {sOn : Bool}
    (hs : fl.neg.isSome = true → isOn fl.solvedSw fl.species = sOn)
    (hb : ¬ (fl.neg.isSome = true ∧ sOn = false ∧ fl.ext.isSome = true ∧
      isOn fl.extSw fl.species = true)) (L : Nat) :
    PrepOk (prepare fl) (fun r => ScratchOk L r.1 ∧ (fl.neg.isSome = true ∧ sOn = false → r.2 = .null))
      (fun _ => True) (Evaluable fl.neg sOn) (Good fl sOn) L := by
  rintro ⟨scr, ptr⟩ pseg n ⟨hscr, hptr⟩ hl hn - hevs
  subst hl
  simp only at hscr hptr
  have hnl : (pseg.take n).length = n := by rw [List.length_take]; omega
  have hrep : (scr.ext.take n) = List.replicate (pseg.take n).length 0 := by
    rw [hscr.2.1, List.take_replicate, hnl, Nat.min_eq_left hn]
  by_cases hoff : fl.neg.isSome = true ∧ sOn = false
  · obtain ⟨F, hF⟩ := Option.isSome_iff_exists.1 hoff.1
    have hp := hptr hoff
    subst hp
    have h1 : solvedPart fl pseg n (scr, .null) = .ok (scr, .null) := by
      unfold solvedPart
      rw [hF]
      simp [hs hoff.1, hoff.2]
    have h2 := external_ok fl (n := n) hscr .null (fun _ h => hb ⟨hoff.1, hoff.2, h.1, h.2⟩)
    refine ⟨(scr, .null), List.zipWith FieldAt.mk (List.replicate n none) (scr.ext.take n), ?_,
      ⟨hscr, fun _ => rfl⟩, ?_⟩
    · simp only [prepare, h1, h2, bind, Except.bind, pure, Except.pure, rows]
    · rw [hrep, hnl]
      rw [List.forall₂_iff_get]
      refine ⟨by simp; omega, ?_⟩
      intro i h3 h4
      refine ⟨0, ?_, ?_, by simp⟩
      · rw [hF, hoff.2]; simp [Spec.IsSolved]
      · rw [if_pos hoff]; simp
  · cases hneg : fl.neg with
    | none =>
      have h1 : solvedPart fl pseg n (scr, ptr) = .ok (scr, .zero) := by
        unfold solvedPart; rw [hneg]
      have h2 := external_ok fl (n := n) hscr .zero (fun h => by cases h)
      refine ⟨(scr, .zero), List.zipWith FieldAt.mk ((scr.zero.take n).map some) (scr.ext.take n),
        ?_, ⟨hscr, by simp⟩, ?_⟩
      · simp only [prepare, h1, h2, bind, Except.bind, pure, Except.pure, rows]
      · rw [hrep]
        refine forall₂_mk (P := fun _ e => e = 0) ?_ ?_
        · rintro p e rfl
          refine ⟨0, ?_, ?_, rfl⟩
          · rw [hneg]; simp [Spec.IsSolved]
          · rw [if_neg hoff]
        · rw [hscr.2.2, List.take_replicate, Nat.min_eq_left hn, List.forall₂_iff_get]
          refine ⟨by simp; omega, ?_⟩
          intro i _ _; simp
    | some F =>
      have hsO : sOn = true := by
        rw [hneg] at hoff; simpa using hoff
      subst hsO
      have hsw := hs (by rw [hneg]; rfl)
      obtain ⟨ws, hw1, hw2⟩ := interpolate_ok F (pseg.take n) (fun p hp => hevs p hp F hneg rfl)
      have hw3 := hw2 [] scr.negE 0 rfl (by rw [hnl, hscr.1]; omega)
      rw [List.nil_append, List.nil_append, hnl, ← interpolate_eq _ _ _ _
        (by rw [hnl, hscr.1]; omega)] at hw3
      have hwl : ws.length = n := by rw [← hw1.length_eq, hnl]
      have hc := combine_ok (fun v _ => -v) ws (scr.negE.drop n) (ws ++ scr.negE.drop n)
      rw [List.take_left, hwl, List.zipWith_self] at hc
      have hok : ScratchOk pseg.length
          (⟨ws.map (fun w => -w) ++ scr.negE.drop n, scr.ext, scr.zero⟩ : Scratch K d) := by
        refine ⟨?_, hscr.2.1, hscr.2.2⟩
        simp only [List.length_append, List.length_map, List.length_drop, hwl, hscr.1]; omega
      have h1 : solvedPart fl pseg n (scr, ptr) =
          .ok (⟨ws.map (fun w => -w) ++ scr.negE.drop n, scr.ext, scr.zero⟩, .neg) := by
        unfold solvedPart
        rw [hneg]
        simp only [hsw, if_true, bind, Except.bind, pure, Except.pure, hw3, hc]
      have h2 := external_ok fl (n := n) hok .neg (fun h => by cases h)
      refine ⟨(⟨ws.map (fun w => -w) ++ scr.negE.drop n, scr.ext, scr.zero⟩, .neg),
        List.zipWith FieldAt.mk ((ws.map (fun w => -w)).map some) (scr.ext.take n), ?_,
        ⟨hok, by simp⟩, ?_⟩
      · simp only [prepare, h1, h2, bind, Except.bind, pure, Except.pure, rows]
        rw [List.take_left' (by rw [List.length_map, hwl])]
      · rw [hrep]
        refine forall₂_mk (P := Spec.IsSolved fl.neg true) ?_ ?_
        · intro p e h
          exact ⟨e, h, by rw [if_neg hoff], rfl⟩
        · rw [List.forall₂_map_right_iff, hneg]
          exact hw1.imp (fun p w h => by simp only [Spec.IsSolved, if_true]; exact ⟨w, h, rfl⟩)

end CppEField
end Dt
