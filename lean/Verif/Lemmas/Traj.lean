import Verif.Spec.Traj
import Verif.Lemmas.SAPReach

/-! # Lemmas on trajectory storage -/

namespace Dt
namespace TrajSp
variable {δ α : Type}

/-- Shape of the three lists. -/
structure WF (np : Nat) (t : TrajSp δ) : Prop where
  len : t.len.length = t.idx.length
  data : t.data.length = t.idx.length
  row : ∀ (j : Nat) (row : List δ), t.data[j]? = some row → row.length = np
  le : ∀ (j l : Nat), t.len[j]? = some l → l ≤ np

theorem pyGet_nat' {β : Type} (xs : List β) (i : Nat) : pyGet xs (i : Int) = orIndexErr xs[i]? := by
  unfold pyGet
  rw [if_pos (by omega), Int.toNat_natCast]

theorem pySet_nat' {β : Type} (xs : List β) (i : Nat) (v : β) :
    pySet xs (i : Int) v = if i < xs.length then .ok (xs.set i v) else .error .index := by
  unfold pySet
  rw [if_pos (by omega), Int.toNat_natCast]

theorem indexOf_ok {xs : List Int} {v : Int} {j : Nat} (h : indexOf xs v = .ok j) :
    xs[j]? = some v ∧ j < xs.length ∧ ∀ k < j, xs[k]? ≠ some v := by
  unfold indexOf at h
  cases hf : xs.findIdx? (· == v) with
  | none => rw [hf] at h; cases h
  | some k =>
    rw [hf] at h
    simp only [Except.ok.injEq] at h
    subst h
    rw [List.findIdx?_eq_some_iff_getElem] at hf
    obtain ⟨h1, h2, h3⟩ := hf
    refine ⟨?_, h1, ?_⟩
    · rw [List.getElem?_eq_getElem h1]
      simpa using h2
    · intro k hk
      have := h3 k hk
      rw [List.getElem?_eq_getElem (by omega)]
      simpa using this

theorem indexOf_mem {xs : List Int} {v : Int} (h : v ∈ xs) : ∃ j, indexOf xs v = .ok j := by
  unfold indexOf
  cases hf : xs.findIdx? (· == v) with
  | none =>
    rw [List.findIdx?_eq_none_iff] at hf
    have := hf v h
    simp at this
  | some j => exact ⟨j, rfl⟩

theorem indexOf_err {xs : List Int} {v : Int} (h : v ∉ xs) : indexOf xs v = .error .value := by
  unfold indexOf
  rw [List.findIdx?_eq_none_iff.2]
  intro x hx
  simp only [beq_eq_false_iff_ne, ne_eq]
  intro hc
  subst hc
  exact h hx

theorem putPoint_ok {np : Nat} {t : TrajSp δ} (h : WF np t) {j l : Nat} (hj : t.len[j]? = some l)
    (hl : l < np) (d : δ) :
    ∃ t', putPoint t j l d = .ok t' ∧ WF np t' ∧ t'.idx = t.idx ∧
      t'.len = t.len.set j (l + 1) ∧
      ∀ k, points t' k = if k = j then points t k ++ [d] else points t k := by
  have hjl : j < t.len.length := by
    rw [List.getElem?_eq_some_iff] at hj; exact hj.1
  have hjd : j < t.data.length := by rw [h.data, ← h.len]; exact hjl
  have hrow := h.row j _ (List.getElem?_eq_getElem hjd)
  unfold putPoint
  rw [pyGet_nat', List.getElem?_eq_getElem hjd]
  simp only [orIndexErr, bind, Except.bind, pySet_nat']
  rw [if_pos (by rw [hrow]; exact hl)]
  simp only []
  rw [if_pos hjd]
  simp only []
  rw [if_pos hjl]
  refine ⟨_, rfl, ⟨by simpa using h.len, by simpa using h.data, ?_, ?_⟩, rfl, rfl, ?_⟩
  · intro k row hk
    simp only [List.getElem?_set] at hk
    split at hk
    · simp only [Option.some.injEq] at hk
      subst hk
      rw [List.length_set]; exact hrow
    · exact h.row k row hk
  · intro k l' hk
    simp only [List.getElem?_set] at hk
    split at hk
    · simp only [Option.some.injEq] at hk
      omega
    · exact h.le k l' hk
  · intro k
    unfold points
    simp only [List.getElem?_set]
    by_cases hk : j = k
    · subst hk
      rw [if_pos rfl, if_pos hjd, if_pos rfl, if_pos hjl, if_pos rfl, hj,
        List.getElem?_eq_getElem hjd]
      simp only []
      apply List.ext_getElem?
      intro m
      rw [List.getElem?_take, List.getElem?_set, List.getElem?_append]
      have hlen : (t.data[j].take l).length = l := by rw [List.length_take]; omega
      rw [hlen]
      by_cases h1 : m < l
      · rw [if_pos (by omega), if_neg (by omega), if_pos h1, List.getElem?_take, if_pos h1]
      · rw [if_neg h1]
        by_cases h2 : m = l
        · subst h2
          rw [if_pos (by omega), if_pos rfl, if_pos (by omega)]
          simp
        · rw [if_neg (by omega)]
          symm
          rw [List.getElem?_eq_none_iff]
          simp; omega
    · rw [if_neg hk, if_neg hk, if_neg (Ne.symm hk)]

theorem putPoint_full {np : Nat} {t : TrajSp δ} (h : WF np t) {j l : Nat}
    (hj : t.len[j]? = some l) (hl : np ≤ l) (d : δ) : putPoint t j l d = .error .index := by
  have hjl : j < t.len.length := by
    rw [List.getElem?_eq_some_iff] at hj; exact hj.1
  have hjd : j < t.data.length := by rw [h.data, ← h.len]; exact hjl
  have hrow := h.row j _ (List.getElem?_eq_getElem hjd)
  unfold putPoint
  rw [pyGet_nat', List.getElem?_eq_getElem hjd]
  simp only [orIndexErr, bind, Except.bind, pySet_nat']
  rw [if_neg (by rw [hrow]; omega)]

theorem points_length {np : Nat} {t : TrajSp δ} (h : WF np t) {j l : Nat}
    (hj : t.len[j]? = some l) : (points t j).length = l := by
  have hjl : j < t.len.length := by
    rw [List.getElem?_eq_some_iff] at hj; exact hj.1
  have hjd : j < t.data.length := by rw [h.data, ← h.len]; exact hjl
  have hrow := h.row j _ (List.getElem?_eq_getElem hjd)
  have hle := h.le j l hj
  unfold points
  rw [hj, List.getElem?_eq_getElem hjd]
  simp only [List.length_take]
  omega

theorem len_get {np : Nat} {t : TrajSp δ} (h : WF np t) {j : Nat} (hj : j < t.idx.length) :
    t.len[j]? = some (points t j).length := by
  have hjl : j < t.len.length := by rw [h.len]; exact hj
  have h1 : t.len[j]? = some t.len[j] := List.getElem?_eq_getElem hjl
  rw [points_length h h1, h1]

/-- Append a point if there is room. -/
def addPt (np : Nat) (pts : List δ) (d : δ) : List δ := if pts.length < np then pts ++ [d] else pts

theorem recordDatum_ok {np : Nat} {t : TrajSp δ} (h : WF np t) {full : Int} {j : Nat}
    (hj : indexOf t.idx full = .ok j) (d : δ) :
    ∃ t', recordDatum np t full d = .ok t' ∧ WF np t' ∧ t'.idx = t.idx ∧
      ∀ k, points t' k = if k = j then addPt np (points t k) d else points t k := by
  have hjl := (indexOf_ok hj).2.1
  have hlen := len_get h hjl
  unfold recordDatum
  rw [hj]
  simp only [bind, Except.bind, pyGet_nat', hlen, orIndexErr]
  by_cases hfull : (points t j).length < np
  · rw [if_neg (by omega)]
    obtain ⟨t', e, h1, h2, h3, h4⟩ := putPoint_ok h hlen hfull d
    refine ⟨t', e, h1, h2, ?_⟩
    intro k
    rw [h4 k]
    by_cases hk : k = j
    · subst hk; simp [addPt, hfull]
    · simp [hk]
  · rw [if_pos (by omega)]
    refine ⟨t, rfl, h, rfl, ?_⟩
    intro k
    by_cases hk : k = j
    · subst hk; simp [addPt, hfull]
    · simp [hk]

theorem recordDatum_err {np : Nat} {t : TrajSp δ} {full : Int} (hf : full ∉ t.idx) (d : δ) :
    recordDatum np t full d = .error .value := by
  unfold recordDatum; rw [indexOf_err hf]; rfl

theorem update_ok {np : Nat} {t : TrajSp δ} (h : WF np t) {i o : Int} {j : Nat}
    (hj : indexOf t.idx i = .ok j) :
    ∃ t', update t i o = .ok t' ∧ WF np t' ∧ t'.idx = t.idx.set j o ∧
      ∀ k, points t' k = points t k := by
  have hjl := (indexOf_ok hj).2.1
  unfold update
  rw [hj]
  simp only [bind, Except.bind, pySet_nat']
  rw [if_pos hjl]
  exact ⟨_, rfl, ⟨by simpa using h.len, by simpa using h.data, h.row, h.le⟩, rfl, fun _ => rfl⟩

theorem remove_ok {T : Type} [Add T] {np : Nat} {t : TrajSp δ} (h : WF np t) {full : Int} {j : Nat}
    (hj : indexOf t.idx full = .ok j) (last : Option Int) (step : Int) (time dt : T)
    (mk : Int → T → δ) :
    ∃ t', remove np last t full step time dt mk = .ok t' ∧ WF np t' ∧
      t'.idx = t.idx.set j (-1) ∧
      ∀ k, points t' k = if k = j then addPt np (points t k)
        (if some step = last then mk (step + 1) (time + dt) else mk step time)
        else points t k := by
  have hjl := (indexOf_ok hj).2.1
  have hlen := len_get h hjl
  have hd : ∀ (c : Prop) [Decidable c],
      mk (if c then (step + 1, time + dt) else (step, time)).1
        (if c then (step + 1, time + dt) else (step, time)).2 =
      if c then mk (step + 1) (time + dt) else mk step time := by
    intro c _; split <;> rfl
  unfold remove
  dsimp only
  rw [hj]
  simp only [bind, Except.bind, pyGet_nat', hlen, orIndexErr, pySet_nat']
  by_cases hfull : (points t j).length < np
  · rw [if_neg (by omega), hd]
    obtain ⟨t', e, h1, h2, h3, h4⟩ := putPoint_ok h hlen hfull
      (if some step = last then mk (step + 1) (time + dt) else mk step time)
    rw [e]
    simp only []
    rw [if_pos (by rw [h2]; exact hjl)]
    refine ⟨_, rfl, ⟨by simpa using h1.len, by simpa using h1.data, h1.row, h1.le⟩, ?_, ?_⟩
    · simp only [noPindex, h2]
    · intro k
      show points t' k = _
      rw [h4 k]
      by_cases hk : k = j
      · subst hk; simp [addPt, hfull]
      · simp [hk]
  · rw [if_pos (by omega), if_pos hjl]
    refine ⟨_, rfl, ⟨by simpa using h.len, by simpa using h.data, h.row, h.le⟩, rfl, ?_⟩
    intro k
    show points t k = _
    by_cases hk : k = j
    · subst hk; simp [addPt, hfull]
    · simp [hk]

theorem empty_wf (np : Nat) : WF np (empty : TrajSp δ) :=
  ⟨rfl, rfl, by simp [empty], by simp [empty]⟩

theorem create_wf {np : Nat} {t : TrajSp δ} (h : WF np t) (junk : δ) (i : Int) :
    WF np (create np junk t i) ∧
      (∀ k, points (create np junk t i) k = points t k) := by
  refine ⟨⟨by simp [create, h.len], by simp [create, h.data], ?_, ?_⟩, ?_⟩
  · intro j row hj
    simp only [create, List.getElem?_append] at hj
    split at hj
    · exact h.row j row hj
    · rw [List.getElem?_singleton] at hj
      split at hj
      · simp only [Option.some.injEq] at hj
        subst hj; simp
      · cases hj
  · intro j l hj
    simp only [create, List.getElem?_append] at hj
    split at hj
    · exact h.le j l hj
    · rw [List.getElem?_singleton] at hj
      split at hj
      · simp only [Option.some.injEq] at hj
        omega
      · cases hj
  · intro k
    unfold points create
    simp only [List.getElem?_append, h.len, h.data]
    by_cases hk : k < t.idx.length
    · simp only [if_pos hk]
    · simp only [if_neg hk]
      rw [List.getElem?_singleton, List.getElem?_singleton]
      have : t.data[k]? = none := by
        rw [List.getElem?_eq_none_iff, h.data]; omega
      rw [this]
      by_cases h0 : k - t.idx.length = 0 <;> simp [h0]

end TrajSp

namespace Traj
open TrajSp
variable {δ α : Type}

/-- One point for every live trajectory `≥ i`, nothing else. -/
def AllOnce (np : Nat) (s : SAP α) (mk : α → δ) (i : Nat) (t t' : TrajSp δ) : Prop :=
  TrajSp.WF np t' ∧ t'.idx = t.idx ∧
    ∀ k, points t' k =
      match t.idx[k]? with
      | some ip => if i ≤ k ∧ ip ≠ -1 then
          match s.getItem ip with
          | .ok p => points t k ++ [mk p]
          | .error _ => points t k
        else points t k
      | none => points t k

theorem getItem_two_steps (s : SAP α) (ip : Int) : s.getItem ip = (do
    let (pseg, offset) ← s.getSegmentAndOffset ip
    pyGet pseg offset) := by
  unfold SAP.getItem SAP.getSegmentAndOffset SAP.load
  simp only [bind, Except.bind, pure, Except.pure]
  cases pyGet s.outA.segs (pyDivmod ip s.sl).1 <;> rfl

theorem chargedLoop_ok {np : Nat} {s : SAP α} {mk : α → δ} (k : Nat) :
    ∀ {i : Nat} {t : TrajSp δ}, TrajSp.WF np t → i + k = t.idx.length →
    (∀ (j : Nat) (ip : Int), i ≤ j → t.idx[j]? = some ip → ip ≠ -1 →
      (points t j).length < np ∧ ∃ p, s.getItem ip = .ok p) →
    ∃ t', chargedLoop np s mk k i t = .ok (t', false) ∧ AllOnce np s mk i t t' := by
  induction k with
  | zero =>
    intro i t h hi _
    refine ⟨t, rfl, h, rfl, ?_⟩
    intro k
    cases hk : t.idx[k]? with
    | none => rfl
    | some ip =>
      have : k < t.idx.length := by
        rw [List.getElem?_eq_some_iff] at hk; exact hk.1
      simp only []
      rw [if_neg (by omega)]
  | succ k ih =>
    intro i t h hi hall
    have hil : i < t.idx.length := by omega
    have hidx := List.getElem?_eq_getElem hil
    unfold chargedLoop
    simp only [bind, Except.bind, pyGet_nat', hidx, orIndexErr]
    by_cases hdead : t.idx[i] = -1
    · rw [if_pos (by rw [hdead]; rfl)]
      obtain ⟨t', e, h1, h2, h3⟩ := ih (i := i + 1) h (by omega)
        (fun j ip hj => hall j ip (by omega))
      refine ⟨t', e, h1, h2, ?_⟩
      intro m
      rw [h3 m]
      cases hm : t.idx[m]? with
      | none => rfl
      | some ip =>
        simp only []
        by_cases hmi : m = i
        · subst hmi
          rw [hidx] at hm
          have hip : ip = -1 := by rw [← hdead]; exact (Option.some.inj hm).symm
          rw [if_neg (by omega), if_neg (by simp [hip])]
        · by_cases hc : i ≤ m ∧ ip ≠ -1
          · rw [if_pos hc, if_pos ⟨by omega, hc.2⟩]
          · rw [if_neg hc, if_neg (fun h' => hc ⟨by omega, h'.2⟩)]
    · rw [if_neg (by simpa [noPindex] using hdead)]
      obtain ⟨hroom, p, hp⟩ := hall i t.idx[i] (Nat.le_refl _) hidx hdead
      have hp2 := hp
      rw [getItem_two_steps] at hp2
      simp only [bind, Except.bind] at hp2
      cases hseg : s.getSegmentAndOffset t.idx[i] with
      | error e => rw [hseg] at hp2; cases hp2
      | ok r =>
        rw [hseg] at hp2
        simp only [] at hp2 ⊢
        rw [hp2]
        simp only []
        have hlen := len_get h hil
        rw [hlen]
        simp only []
        rw [if_neg (by omega)]
        obtain ⟨t1, e1, w1, w2, w3, w4⟩ := putPoint_ok h hlen hroom (mk p)
        rw [e1]
        simp only []
        obtain ⟨t', e, h1, h2, h3⟩ := ih (i := i + 1) w1 (by rw [w2]; omega) (by
          intro j ip hj hip hne
          rw [w2] at hip
          obtain ⟨a, b⟩ := hall j ip (by omega) hip hne
          rw [w4 j, if_neg (by omega)]
          exact ⟨a, b⟩)
        refine ⟨t', e, h1, by rw [h2, w2], ?_⟩
        intro m
        rw [h3 m, w2]
        cases hm : t.idx[m]? with
        | none =>
          simp only []
          rw [w4 m, if_neg]
          intro hmi
          subst hmi
          rw [hidx] at hm
          cases hm
        | some ip =>
          simp only []
          by_cases hmi : m = i
          · subst hmi
            rw [hidx] at hm
            have hip : t.idx[m] = ip := Option.some.inj hm
            rw [if_neg (by omega), if_pos ⟨by omega, by rw [← hip]; exact hdead⟩, ← hip, hp]
            simp only []
            rw [w4 m, if_pos rfl]
          · rw [w4 m, if_neg hmi]
            by_cases hc : i ≤ m ∧ ip ≠ -1
            · rw [if_pos hc, if_pos ⟨by omega, hc.2⟩]
            · rw [if_neg hc, if_neg (fun h' => hc ⟨by omega, h'.2⟩)]

/-- What is true of the charged loop whatever the buffers hold. -/
theorem chargedLoop_any {np : Nat} {s : SAP α} {mk : α → δ} (k : Nat) :
    ∀ {i : Nat} {t t' : TrajSp δ} {early : Bool}, TrajSp.WF np t →
    chargedLoop np s mk k i t = .ok (t', early) →
    TrajSp.WF np t' ∧ t'.idx = t.idx ∧ ∀ j, ∃ new, points t' j = points t j ++ new := by
  induction k with
  | zero =>
    intro i t t' early h e
    simp only [chargedLoop, Except.ok.injEq, Prod.mk.injEq] at e
    obtain ⟨rfl, _⟩ := e
    exact ⟨h, rfl, fun j => ⟨[], by simp⟩⟩
  | succ k ih =>
    intro i t t' early h e
    unfold chargedLoop at e
    simp only [bind, Except.bind, pyGet_nat'] at e
    cases hidx : t.idx[i]? with
    | none => rw [hidx] at e; cases e
    | some ip =>
      have hil : i < t.idx.length := by
        rw [List.getElem?_eq_some_iff] at hidx; exact hidx.1
      rw [hidx] at e
      simp only [orIndexErr] at e
      split at e
      · exact ih h e
      · cases hseg : s.getSegmentAndOffset ip with
        | error _ => rw [hseg] at e; cases e
        | ok r =>
          rw [hseg] at e
          simp only [] at e
          cases hp : pyGet r.1 r.2 with
          | error _ => rw [hp] at e; cases e
          | ok p =>
            rw [hp] at e
            have hlen := len_get h hil
            rw [hlen] at e
            simp only [] at e
            split at e
            · simp only [pure, Except.pure, Except.ok.injEq, Prod.mk.injEq] at e
              obtain ⟨rfl, _⟩ := e
              exact ⟨h, rfl, fun j => ⟨[], by simp⟩⟩
            · obtain ⟨t1, e1, w1, w2, w3, w4⟩ := putPoint_ok h hlen (by omega) (mk p)
              rw [e1] at e
              obtain ⟨a, b, c⟩ := ih w1 e
              refine ⟨a, by rw [b, w2], fun j => ?_⟩
              obtain ⟨new, hn⟩ := c j
              rw [hn, w4 j]
              split
              · exact ⟨mk p :: new, by simp⟩
              · exact ⟨new, rfl⟩

theorem neutralLoop_any {np : Nat} {s : SAP α} {mk : α → δ} (k : Nat) :
    ∀ {i : Nat} {t t' : TrajSp δ}, TrajSp.WF np t →
    neutralLoop s mk k i t = .ok t' →
    TrajSp.WF np t' ∧ t'.idx = t.idx ∧ ∀ j, ∃ new, points t' j = points t j ++ new := by
  induction k with
  | zero =>
    intro i t t' h e
    simp only [neutralLoop, Except.ok.injEq] at e
    subst e
    exact ⟨h, rfl, fun j => ⟨[], by simp⟩⟩
  | succ k ih =>
    intro i t t' h e
    unfold neutralLoop at e
    simp only [bind, Except.bind, pyGet_nat'] at e
    cases hidx : t.idx[i]? with
    | none => rw [hidx] at e; cases e
    | some ip =>
      have hil : i < t.idx.length := by
        rw [List.getElem?_eq_some_iff] at hidx; exact hidx.1
      rw [hidx] at e
      simp only [orIndexErr] at e
      split at e
      · exact ih h e
      · cases hseg : s.getSegmentAndOffset ip with
        | error _ => rw [hseg] at e; cases e
        | ok r =>
          rw [hseg] at e
          simp only [] at e
          cases hp : pyGet r.1 r.2 with
          | error _ => rw [hp] at e; cases e
          | ok p =>
            rw [hp] at e
            have hlen := len_get h hil
            rw [hlen] at e
            simp only [] at e
            by_cases hroom : (points t i).length < np
            · obtain ⟨t1, e1, w1, w2, w3, w4⟩ := putPoint_ok h hlen hroom (mk p)
              rw [e1] at e
              obtain ⟨a, b, c⟩ := ih w1 e
              refine ⟨a, by rw [b, w2], fun j => ?_⟩
              obtain ⟨new, hn⟩ := c j
              rw [hn, w4 j]
              split
              · exact ⟨mk p :: new, by simp⟩
              · exact ⟨new, rfl⟩
            · rw [putPoint_full h hlen (by omega)] at e
              cases e

/-- The neutral loop: with room everywhere it does what the charged one does;
it raises if a live trajectory is full. -/
theorem neutralLoop_ok {np : Nat} {s : SAP α} {mk : α → δ} (k : Nat) :
    ∀ {i : Nat} {t : TrajSp δ}, TrajSp.WF np t → i + k = t.idx.length →
    (∀ (j : Nat) (ip : Int), i ≤ j → t.idx[j]? = some ip → ip ≠ -1 →
      (points t j).length < np ∧ ∃ p, s.getItem ip = .ok p) →
    ∃ t', neutralLoop s mk k i t = .ok t' ∧ chargedLoop np s mk k i t = .ok (t', false) := by
  induction k with
  | zero => intro i t h hi _; exact ⟨t, rfl, rfl⟩
  | succ k ih =>
    intro i t h hi hall
    have hil : i < t.idx.length := by omega
    have hidx := List.getElem?_eq_getElem hil
    unfold chargedLoop neutralLoop
    simp only [bind, Except.bind, pyGet_nat', hidx, orIndexErr]
    by_cases hdead : t.idx[i] = -1
    · rw [if_pos (by rw [hdead]; rfl), if_pos (by rw [hdead]; rfl)]
      exact ih h (by omega) (fun j ip hj => hall j ip (by omega))
    · rw [if_neg (by simpa [noPindex] using hdead), if_neg (by simpa [noPindex] using hdead)]
      obtain ⟨hroom, p, hp⟩ := hall i t.idx[i] (Nat.le_refl _) hidx hdead
      have hp2 := hp
      rw [getItem_two_steps] at hp2
      simp only [bind, Except.bind] at hp2
      cases hseg : s.getSegmentAndOffset t.idx[i] with
      | error e => rw [hseg] at hp2; cases hp2
      | ok r =>
        rw [hseg] at hp2
        simp only [] at hp2 ⊢
        rw [hp2]
        simp only []
        have hlen := len_get h hil
        rw [hlen]
        simp only []
        rw [if_neg (by omega)]
        obtain ⟨t1, e1, w1, w2, w3, w4⟩ := putPoint_ok h hlen hroom (mk p)
        rw [e1]
        simp only []
        exact ih (i := i + 1) w1 (by rw [w2]; omega) (by
          intro j ip hj hip hne
          rw [w2] at hip
          obtain ⟨a, b⟩ := hall j ip (by omega) hip hne
          rw [w4 j, if_neg (by omega)]
          exact ⟨a, b⟩)

end Traj

namespace TrajSp
variable {δ : Type}

theorem step_wf {np : Nat} {t t' : TrajSp δ} (hs : Step np t t') (ih : WF np t) :
    WF np t' ∧ (∀ j, points t j <+: points t' j) ∧ t.idx.length ≤ t'.idx.length := by
  cases hs with
  | create junk i =>
    refine ⟨(create_wf ih junk i).1, fun j => ?_, by simp [create]⟩
    rw [(create_wf ih junk i).2 j]
    exact List.prefix_refl _
  | @datum _ _ full d e =>
    by_cases hm : full ∈ t.idx
    · obtain ⟨j, hj⟩ := indexOf_mem hm
      obtain ⟨t1, e1, w, w2, w3⟩ := recordDatum_ok ih hj d
      rw [e] at e1
      cases e1
      refine ⟨w, fun k => ?_, by rw [w2]; exact Nat.le_refl _⟩
      rw [w3 k]
      unfold addPt
      repeat' split
      all_goals first | exact List.prefix_append _ _ | exact List.prefix_refl _
    · rw [recordDatum_err hm] at e; cases e
  | @update _ _ i o e =>
    by_cases hm : i ∈ t.idx
    · obtain ⟨j, hj⟩ := indexOf_mem hm
      obtain ⟨t1, e1, w, w2, w3⟩ := update_ok (o := o) ih hj
      rw [e] at e1
      cases e1
      refine ⟨w, fun k => ?_, by rw [w2]; simp⟩
      rw [w3 k]; exact List.prefix_refl _
    · unfold TrajSp.update at e
      rw [indexOf_err hm] at e
      cases e
  | @remove T _ _ _ last full step time dt mk e =>
    by_cases hm : full ∈ t.idx
    · obtain ⟨j, hj⟩ := indexOf_mem hm
      obtain ⟨t1, e1, w, w2, w3⟩ := remove_ok ih hj last step time dt mk
      rw [e] at e1
      cases e1
      refine ⟨w, fun k => ?_, by rw [w2]; simp⟩
      rw [w3 k]
      unfold addPt
      repeat' split
      all_goals first | exact List.prefix_append _ _ | exact List.prefix_refl _
    · unfold TrajSp.remove at e
      rw [indexOf_err hm] at e
      cases e
  | charged e =>
    obtain ⟨w, w2, w3⟩ := Traj.chargedLoop_any _ ih e
    refine ⟨w, fun k => ?_, by rw [w2]; exact Nat.le_refl _⟩
    obtain ⟨new, hn⟩ := w3 k
    rw [hn]; exact List.prefix_append _ _
  | neutral e =>
    obtain ⟨w, w2, w3⟩ := Traj.neutralLoop_any _ ih e
    refine ⟨w, fun k => ?_, by rw [w2]; exact Nat.le_refl _⟩
    obtain ⟨new, hn⟩ := w3 k
    rw [hn]; exact List.prefix_append _ _

theorem run_wf {np : Nat} {t t' : TrajSp δ} (hs : Run np t t') (ih : WF np t) :
    WF np t' ∧ (∀ j, points t j <+: points t' j) ∧ t.idx.length ≤ t'.idx.length := by
  induction hs with
  | refl => exact ⟨ih, fun _ => List.prefix_refl _, Nat.le_refl _⟩
  | tail _ s ih2 =>
    obtain ⟨a, b, c⟩ := ih2
    obtain ⟨a', b', c'⟩ := step_wf s a
    exact ⟨a', fun j => (b j).trans (b' j), Nat.le_trans c c'⟩

theorem reach_wf {np : Nat} {t : TrajSp δ} (h : Reach np t) : WF np t :=
  (run_wf h (empty_wf np)).1

end TrajSp
end Dt
