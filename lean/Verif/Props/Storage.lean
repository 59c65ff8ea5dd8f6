import Verif.Lemmas.SAPClient

/-!
# Properties C01 - C08: the segmented array pair

Statements use only the modelled methods (`pushBack`, `getItem`, ...), the
inductive predicate `Reachable`, and the specification vocabulary of
`Verif/Spec`.
-/

namespace Dt
open SAP Spec

variable {α : Type _}

/-- The container after appending `xs`; used in the concrete cases only. -/
def demoSAP {α : Type} [Inhabited α] (sl : Nat) (xs : List α) : SAP α :=
  match (SAP.new sl default).pushAll xs with
  | .ok (s, _) => s
  | .error _ => SAP.new sl default

/-! ## C01 -/

/-- **C01.** After any sequence of appends to a new container nothing has
raised, the count is the number of appends, and all three ways of subscripting
give the i-th appended item. -/
theorem C01_append_keeps_order (sl : Nat) (hsl : 0 < sl) (junk : α) (xs : List α) :
    ∃ s rs, (SAP.new sl junk).pushAll xs = .ok (s, rs) ∧
      s.getNumberOfItems = xs.length ∧
      ∀ (i : Nat) (hi : i < xs.length),
        s.getItem i = .ok xs[i] ∧
        ∃ (seg : List α) (off : Nat), s.getSegmentAndOffset i = .ok (seg, (off : Int)) ∧
          seg[off]? = some xs[i] := by
  obtain ⟨s, rs, e, hi, _, hc, _⟩ := pushAll_ok (new_inv sl junk hsl) (by
    simp [Synced, SAP.new, outA, arr]) xs
  simp only [new_contents, List.nil_append] at hc
  refine ⟨s, rs, e, by rw [← contents_length hi, hc], ?_⟩
  intro i hlt
  subst hc
  refine ⟨getItem_ok hi hlt, ?_⟩
  obtain ⟨seg, h1, h2⟩ := getSegmentAndOffset_ok hi hlt
  exact ⟨seg, _, h1, h2⟩

/-- Non-vacuity: segment length 3 and 7 items: three segments, the last one
partly filled. -/
example : (demoSAP 3 [1, 2, 3, 4, 5, 6, 7]).getNumberOfItems = 7 ∧
    (demoSAP 3 [1, 2, 3, 4, 5, 6, 7]).getItem 5 = .ok 6 ∧
    (demoSAP 3 [1, 2, 3, 4, 5, 6, 7]).getNumberOfSegments = (1, 3) := by decide

/-! ## C02 -/

/-- **C02.** In every reachable state a successful `push_back` returns the
previous item count as full index and its remainder as offset; that index reads
the item back, immediately and after any further successful pushes. -/
theorem C02_push_index_stable {s s' : SAP α} (hr : Reachable s) {x : α} {off full : Int}
    (e : s.pushBack x = .ok (s', (off, full))) :
    full = s.getNumberOfItems ∧ off = full % s.sl ∧
    ∀ (ys : List α) (t : SAP α) (rs : List (Int × Int)), s'.pushAll ys = .ok (t, rs) →
      t.getItem full = .ok x := by
  have hi := reachable_inv hr
  rcases pushBack_cases hi with hp | ⟨hf, hs⟩
  · obtain ⟨s1, e1, hi1, hc1, _, _, _, _, _, _, _⟩ := pushBack_ok hi x hp
    rw [e1] at e
    simp only [Except.ok.injEq, Prod.mk.injEq] at e
    obtain ⟨rfl, rfl, rfl⟩ := e
    refine ⟨contents_length hi, by push_cast; rfl, ?_⟩
    intro ys t rs ht
    have key : ∀ (ys : List α) (u t : SAP α) (rs : List (Int × Int)), u.Inv →
        (∃ zs, u.contents = s.contents ++ x :: zs) → u.pushAll ys = .ok (t, rs) →
        t.Inv ∧ ∃ zs, t.contents = s.contents ++ x :: zs := by
      intro ys
      induction ys with
      | nil =>
        intro u t rs hu hz h
        simp only [pushAll, Except.ok.injEq, Prod.mk.injEq] at h
        obtain ⟨rfl, _⟩ := h
        exact ⟨hu, hz⟩
      | cons y ys ih =>
        intro u t rs hu hz h
        obtain ⟨zs, hz⟩ := hz
        rcases pushBack_cases hu with hp | ⟨hf, hs⟩
        · obtain ⟨u1, e2, hu1, hc2, _⟩ := pushBack_ok hu y hp
          unfold pushAll at h
          rw [e2] at h
          simp only [bind, Except.bind] at h
          cases h3 : u1.pushAll ys with
          | error _ => rw [h3] at h; cases h
          | ok p =>
            rw [h3] at h
            simp only [pure, Except.pure, Except.ok.injEq, Prod.mk.injEq] at h
            obtain ⟨rfl, _⟩ := h
            exact ih u1 p.1 p.2 hu1 ⟨zs ++ [y], by rw [hc2, hz]; simp⟩ h3
        · unfold pushAll at h
          rw [pushBack_err y hf hs] at h
          cases h
    obtain ⟨hti, zs, hzs⟩ := key ys s1 t rs hi1 ⟨[], by rw [hc1]⟩ ht
    have hlt : s.contents.length < t.contents.length := by rw [hzs]; simp
    rw [getItem_ok hti hlt]
    congr 1
    simp [hzs]
  · rw [pushBack_err x hf hs] at e
    cases e

/-- Non-vacuity: the push that opens the second segment. -/
example : ((demoSAP 2 [10, 20]).pushBack 30).map (·.2) = .ok (0, 2) := by decide

/-! ## C03 -/

/-- **C03.** Assigning to an existing index succeeds, changes the item read at
that index to the new value and no other, and keeps the count. -/
theorem C03_setitem_frame {s : SAP α} (hr : Reachable s) (i : Nat)
    (hi : (i : Int) < s.getNumberOfItems) (v : α) :
    ∃ s', s.setItem i v = .ok s' ∧ s'.getItem i = .ok v ∧
      s'.getNumberOfItems = s.getNumberOfItems ∧
      ∀ j : Nat, j ≠ i → (j : Int) < s.getNumberOfItems → s'.getItem j = s.getItem j := by
  have inv := reachable_inv hr
  have hl := contents_length inv
  have hlt : i < s.contents.length := by omega
  obtain ⟨s', e, hi', hc', hsl, _⟩ := setItem_ok inv hlt v
  have hl' := contents_length hi'
  have hlen : s'.contents.length = s.contents.length := by rw [hc']; simp
  refine ⟨s', e, ?_, by omega, ?_⟩
  · rw [getItem_ok hi' (i := i) (by omega)]
    simp [hc']
  · intro j hji hj
    rw [getItem_ok hi' (i := j) (by omega), getItem_ok inv (i := j) (by omega)]
    simp only [hc']
    rw [List.getElem_set_ne (by omega)]

/-- Non-vacuity: overwriting item 2 of 3 with segment length 2. -/
example : ((demoSAP 2 [10, 20, 30]).setItem 2 99).map (fun t => (t.getItem 1, t.getItem 2)) =
    .ok (.ok 20, .ok 99) := by decide

/-! ## C04 -/

/-- **C04.** In every reachable state a read loop runs to completion; its
pieces are non-empty, all but the last have full length, their number is
`⌈n/segment length⌉`, and their concatenation is the sequence of items that
subscripting gives.  Count, subscripts and capacity are the same afterwards. -/
theorem C04_read_loop {s : SAP α} (hr : Reachable s) :
    ∃ (items : List α) (s' : SAP α) (ps : List (List α)),
      (items.length : Int) = s.getNumberOfItems ∧
      (∀ (i : Nat) (hi : i < items.length), s.getItem i = .ok items[i]) ∧
      s.readLoop = .ok (s', ps) ∧ ps.flatten = items ∧
      (∀ p ∈ ps, p ≠ []) ∧ (∀ p ∈ ps.dropLast, p.length = s.sl) ∧
      ps.length = (items.length + s.sl - 1) / s.sl ∧
      s'.getNumberOfItems = s.getNumberOfItems ∧ s'.getCapacity = s.getCapacity ∧
      ∀ i : Int, s'.getItem i = s.getItem i := by
  have inv := reachable_inv hr
  have hpos := inv.out.pos
  refine ⟨s.contents, _, _, contents_length inv, fun i hi => getItem_ok inv hi,
    readLoop_ok inv.out, chunk_flatten hpos _, chunk_ne_nil hpos _, chunk_dropLast_length hpos _,
    chunk_length hpos _, ?_, ?_, ?_⟩
  · simp [getNumberOfItems]
  · simp [getCapacity, withCur_inA inv.sel]
  · intro i
    simp [getItem, load]

/-- Non-vacuity: exact multiple of the segment length. -/
example : (demoSAP 2 [1, 2, 3, 4]).readLoop.map (·.2) = .ok [[1, 2], [3, 4]] := by decide

/-! ## C05 -/

/-- **C05 (a).** In every reachable state the count does not exceed the
capacity of the "out" array. -/
theorem C05_count_le_capacity {s : SAP α} (hr : Reachable s) :
    0 ≤ s.getNumberOfItems ∧ s.getNumberOfItems ≤ s.getCapacity.2 := by
  have inv := reachable_inv hr
  obtain ⟨f, o, hf, ho, hfl, hol, hfl2, hle⟩ := inv.out.total
  unfold getNumberOfItems getCapacity
  rw [hf, ho, inv.out.nseg]
  constructor
  · have : (0 : Int) ≤ (f : Int) * (s.sl : Int) := by exact_mod_cast Nat.zero_le _
    omega
  · exact_mod_cast hle

/-- **C05 (b).** After any sequence of pushes onto a new container the "out"
array has exactly `max 1 ⌈n/segment length⌉` segments, its capacity is that
many segment lengths, and the "in" array still has one segment. -/
theorem C05_growth_minimal (sl : Nat) (hsl : 0 < sl) (junk : α) (xs : List α) :
    ∃ s rs, (SAP.new sl junk).pushAll xs = .ok (s, rs) ∧
      s.getNumberOfSegments = (1, max 1 ((xs.length + sl - 1) / sl)) ∧
      s.getCapacity = (sl, max 1 ((xs.length + sl - 1) / sl) * sl) := by
  have key : ∀ (ys : List α) (u : SAP α), u.Inv → u.Synced → u.sl = sl → u.inA.nseg = 1 →
      (0 < u.outA.fnf → 0 < u.outA.fao) →
      u.outA.nseg = max 1 ((u.contents.length + sl - 1) / sl) →
      ∃ s rs, u.pushAll ys = .ok (s, rs) ∧ s.sl = sl ∧ s.inA.nseg = 1 ∧
        s.outA.nseg = max 1 (((u.contents ++ ys).length + sl - 1) / sl) := by
    intro ys
    induction ys with
    | nil =>
      intro u _ _ h3 h4 _ h6
      exact ⟨u, [], rfl, h3, h4, by simpa using h6⟩
    | cons y ys ih =>
      intro u h1 h2 h3 h4 h5 h6
      obtain ⟨u1, e1, hi1, hc1, hsl1, _, hin1, _, _, hcur1, hns1, hfao1⟩ := pushBack_ok h1 y (.inr h2)
      have hfull := full_iff h1 h5
      have hfnf := tidy_fnf h1 h5
      have hn : u1.outA.nseg = max 1 ((u1.contents.length + sl - 1) / sl) := by
        rw [hns1, hc1, h6, List.length_append]
        simp only [List.length_cons, List.length_nil, Nat.zero_add]
        rw [h3] at hfull hfnf
        generalize hL : u.contents.length = L at *
        rw [h6] at hns1
        rw [h3, hfnf]
        by_cases hL0 : L = 0
        · subst hL0
          have hne : ¬ (u.outA.fao = (sl : Int)) := by
            intro hc
            have := (hfull.1 hc).1
            rw [List.length_eq_zero_iff] at hL
            exact this hL
          rw [if_neg (fun hc => hne hc.1)]
          have h7 : (0 + sl - 1) / sl = 0 := Nat.div_eq_of_lt (by omega)
          have h8 : (0 + 1 + sl - 1) / sl = 1 := by
            rw [show 0 + 1 + sl - 1 = sl by omega, Nat.div_self hsl]
          rw [h7, h8]
          rfl
        · have hne : u.contents ≠ [] := by
            intro hc; rw [hc] at hL; simp at hL; omega
          have hceil : (L + sl - 1) / sl = (L - 1) / sl + 1 := by
            rw [show L + sl - 1 = (L - 1) + sl by omega, Nat.add_div_right _ hsl]
          have hceil2 : (L + 1 + sl - 1) / sl = L / sl + 1 := by
            rw [show L + 1 + sl - 1 = L + sl by omega, Nat.add_div_right _ hsl]
          rw [hceil, hceil2]
          have hstep : L / sl = (L - 1) / sl + if L % sl = 0 then 1 else 0 := by
            have := Nat.succ_div (a := L - 1) (b := sl)
            rw [show L - 1 + 1 = L by omega] at this
            rw [this]
            congr 1
            by_cases hd : sl ∣ L
            · rw [if_pos hd, if_pos (Nat.mod_eq_zero_of_dvd hd)]
            · rw [if_neg hd, if_neg (fun h => hd (Nat.dvd_of_mod_eq_zero h))]
          by_cases hm : L % sl = 0
          · rw [if_pos hm] at hstep
            rw [if_pos ⟨hfull.2 ⟨hne, hm⟩, by
              generalize (L - 1) / sl = q
              omega⟩, hstep]
            generalize (L - 1) / sl = q
            omega
          · rw [if_neg hm] at hstep
            rw [if_neg (fun hc => hm (hfull.1 hc.1).2), hstep]
      obtain ⟨s, rs, e2, hs1, hs2, hs3⟩ := ih u1 hi1 (by unfold Synced at *; omega)
        (by rw [hsl1, h3]) (by rw [hin1]; exact h4) (fun _ => hfao1) hn
      refine ⟨s, (((u.contents.length % u.sl : Nat) : Int), (u.contents.length : Int)) :: rs,
        ?_, hs1, hs2, ?_⟩
      · unfold pushAll
        rw [e1]
        simp only [bind, Except.bind]
        rw [e2]
        rfl
      · rw [hs3, hc1]
        simp
  obtain ⟨s, rs, e, h1, h2, h3⟩ := key xs (SAP.new sl junk) (new_inv sl junk hsl)
    (by simp [Synced, SAP.new, outA, arr]) rfl rfl (by simp [SAP.new, outA, arr])
    (by
      rw [new_contents]
      have : (([] : List α).length + sl - 1) / sl = 0 := Nat.div_eq_of_lt (by simp; omega)
      rw [this]; rfl)
  rw [new_contents, List.nil_append] at h3
  refine ⟨s, rs, e, ?_, ?_⟩
  · simp [getNumberOfSegments, h2, h3]
  · simp [getCapacity, h1, h2, h3]

/-- Non-vacuity. -/
example : (demoSAP 2 [1, 2, 3, 4, 5]).getCapacity = (2, 6) := by decide

/-! ## C06 -/

/-- **C06 (count).** `get_number_of_items` returns what `set_number_of_items`
declared, in every state and for every number, 0 included. -/
theorem C06_count (s : SAP α) (n : Int) :
    (s.setNumberOfItems .Out n).getNumberOfItems = n := by
  unfold setNumberOfItems getNumberOfItems pyDivmod sel
  simp only [outA_setArr_out, setArr_sl]
  have h1 := Int.mul_fdiv_add_fmod (n - 1) s.sl
  rw [Int.mul_comm]
  omega

/-- **C06 (partial).** For `1 ≤ n ≤ capacity` a read loop after
`set_number_of_items('out', n)` yields exactly the first `n` slots in order.
Missing: `n = 0`, where the statement is false (`C06_zero_ghosts`). -/
theorem C06_read_back_partial {s : SAP α} (hr : Reachable s) (n : Nat) (h1 : 1 ≤ n)
    (h2 : n ≤ s.getCapacity.2) :
    ∃ (items : List α) (t : SAP α) (ps : List (List α)), items.length = n ∧
      (∀ (i : Nat) (hi : i < items.length), s.getItem i = .ok items[i]) ∧
      (s.setNumberOfItems .Out n).readLoop = .ok (t, ps) ∧ ps.flatten = items := by
  have inv := reachable_inv hr
  have h2' : n ≤ s.outA.nseg * s.sl := h2
  obtain ⟨hi', hc', _, _, _, _, hsegs, _, hsl, _⟩ := setNumberOfItems_ok inv n h1 h2'
  have hlen : s.outA.segs.flatten.length = s.outA.segs.length * s.sl := inv.out.uni.flatten_length
  refine ⟨s.outA.segs.flatten.take n, _, _, ?_, ?_, readLoop_ok hi'.out, ?_⟩
  · rw [List.length_take, hlen, ← inv.out.nseg]; omega
  · intro i hi
    rw [getItem_eq inv.out.uni inv.out.pos]
    have hi2 : i < s.outA.segs.flatten.length := by
      rw [List.length_take] at hi; omega
    rw [List.getElem?_eq_getElem hi2]
    simp [orIndexErr]
  · rw [chunk_flatten (by rw [hsl]; exact inv.out.pos), hc']

/-- Non-vacuity of `C06_read_back_partial`: truncating five items to four. -/
example : ((demoSAP 2 [1, 2, 3, 4, 5]).setNumberOfItems .Out 4).readLoop.map (·.2.flatten) =
    .ok [1, 2, 3, 4] := by decide

/-- **C06 fails at 0.** In every reachable state, declaring 0 items leaves a
container that reports 0 items but whose read loop yields the whole first
segment (`segment length` stale items), after which every `push_back`
raises. -/
theorem C06_zero_ghosts {s : SAP α} (hr : Reachable s) :
    (s.setNumberOfItems .Out 0).getNumberOfItems = 0 ∧
    ∃ (seg : List α) (t : SAP α), s.getSegmentAndOffset 0 = .ok (seg, 0) ∧
      seg.length = s.sl ∧ 0 < s.sl ∧
      (s.setNumberOfItems .Out 0).readLoop = .ok (t, [seg]) ∧
      ∀ x, t.pushBack x = .error .assertion := by
  have inv := reachable_inv hr
  have hpos := inv.out.pos
  refine ⟨C06_count s 0, ?_⟩
  obtain ⟨f, o, hf, ho, hfl, hol, hfl2, hle⟩ := inv.out.total
  have h0 : 0 < s.outA.segs.length := by omega
  have hlen : (s.outA.segs[0]).length = s.sl := inv.out.uni _ (List.getElem_mem h0)
  obtain ⟨h1, h2⟩ := setNumber_zero (s := s) hpos
  have h3 := readLoop_ghost (s := s.setNumberOfItems .Out 0) (by rw [h1]) (by rw [h1]; exact h0)
  refine ⟨s.outA.segs[0], (s.setNumberOfItems .Out 0).withCur 1, ?_, hlen, hpos, ?_, ?_⟩
  · unfold getSegmentAndOffset
    rw [show (0 : Int) = ((0 : Nat) : Int) from rfl, pyDivmod_nat]
    simp only [Nat.zero_div, Nat.zero_mod]
    rw [pyGet_nat, List.getElem?_eq_getElem h0]
    rfl
  · rw [h3, h2]
    simp only [h1]
    rw [List.take_of_length_le (by omega)]
  · intro x
    apply pushBack_err
    · simp [h1, h2]
    · simp [Synced, h1]

/-- Witness for the failure of C06 at 0 on a concrete history: two particles,
then "0 items": the loop still visits both. -/
theorem C06_false_at_zero : ∃ s : SAP Nat, Reachable s ∧
    (s.setNumberOfItems .Out 0).getNumberOfItems = 0 ∧
    (s.setNumberOfItems .Out 0).readLoop.map (·.2) = .ok [[7, 8]] := by
  refine ⟨_, Reachable.push (s := _) (Reachable.push (Reachable.new 2 0 (by decide)) (x := 7) rfl)
    (x := 8) rfl, ?_, ?_⟩ <;> decide

/-! ## C07 -/

/-- **C07 (exact).** For every history of appends, subscript reads and writes
(in range), counts, complete and abandoned read loops, the container returns
exactly the results of the list machine and raises exactly when it does: the
only failing call is an append when the items exactly fill their segments and
the cursor was left out of step by a read loop. -/
theorem C07_history_exact (sl : Nat) (hsl : 0 < sl) (junk : α) (cs : List (Call α))
    (rs : List (Res α)) (f : Except Err (LState α))
    (hrun : (⟨[], false⟩ : LState α).run sl cs = some (rs, f)) :
    ∃ f', (SAP.new sl junk).runCalls cs = (rs, f') ∧
      match f with
      | .error e => f' = .error e
      | .ok st => ∃ s, f' = .ok s ∧ s.getNumberOfItems = st.items.length ∧
          ∀ (i : Nat) (h : i < st.items.length), s.getItem i = .ok st.items[i] := by
  obtain ⟨f', e, h⟩ := sim_run (new_sim sl junk hsl) cs rs f (by exact hrun)
  refine ⟨f', e, ?_⟩
  cases f with
  | error e => exact h
  | ok st =>
    obtain ⟨s, h1, h2, _⟩ := h
    refine ⟨s, h1, ?_, ?_⟩
    · rw [← contents_length h2.inv, h2.items]
    · intro i hi
      have hi' : i < s.contents.length := by rw [h2.items]; exact hi
      rw [getItem_ok h2.inv hi']
      simp [h2.items]

/-- A history in which no read loop has been started. -/
def Spec.Call.isRead : Call α → Bool
  | .readAll => true
  | .readSome _ => true
  | _ => false

/-- Subscripts of a history are in range, given the initial number of items. -/
def Spec.inRange : Nat → List (Call α) → Prop
  | _, [] => True
  | n, .push _ :: cs => inRange (n + 1) cs
  | n, .get i :: cs => i < n ∧ inRange n cs
  | n, .set i _ :: cs => i < n ∧ inRange n cs
  | n, _ :: cs => inRange n cs

/-- **C07 (partial).** Histories whose read loops all come after the last
append (`cs ++ ds`, no read loop in `cs`, no append in `ds`) behave like a
plain list: nothing raises and the final items are those of the ideal list.
Missing: appends after a read loop, where the claim is false
(`C07_false_push_after_read`); `C07_history_exact` says exactly which fail. -/
theorem C07_reads_after_pushes_partial (sl : Nat) (hsl : 0 < sl) (junk : α)
    (cs ds : List (Call α)) (hcs : ∀ c ∈ cs, c.isRead = false)
    (hds : ∀ d ∈ ds, ∀ x, d ≠ .push x) (hr : inRange 0 (cs ++ ds)) :
    ∃ rs s, (SAP.new sl junk).runCalls (cs ++ ds) = (rs, .ok s) ∧
      s.getNumberOfItems = (idealItems [] (cs ++ ds)).length ∧
      ∀ (i : Nat) (h : i < (idealItems [] (cs ++ ds)).length),
        s.getItem i = .ok (idealItems [] (cs ++ ds))[i] := by
  have part2 : ∀ (ds : List (Call α)) (st : LState α), (∀ d ∈ ds, ∀ x, d ≠ .push x) →
      inRange st.items.length ds →
      ∃ rs st', st.run sl ds = some (rs, .ok st') ∧ st'.items = idealItems st.items ds := by
    intro ds
    induction ds with
    | nil => intro st _ _; exact ⟨[], st, rfl, rfl⟩
    | cons d ds ih =>
      intro st h1 h2
      have h1' : ∀ d ∈ ds, ∀ x, d ≠ .push x := fun d hd => h1 d (by simp [hd])
      cases d with
      | push x => exact absurd rfl (h1 _ (by simp) x)
      | get i =>
        obtain ⟨rs, st', e, hi⟩ := ih st h1' h2.2
        refine ⟨.item (st.items[i]'h2.1) :: rs, st', ?_, hi⟩
        simp only [LState.run, LState.step, List.getElem?_eq_getElem h2.1, e]
      | set i v =>
        obtain ⟨rs, st', e, hi⟩ := ih ⟨st.items.set i v, st.stale⟩ h1' (by
          simp only [List.length_set]; exact h2.2)
        refine ⟨.unit :: rs, st', ?_, hi⟩
        simp only [LState.run, LState.step, if_pos h2.1, e]
      | count =>
        obtain ⟨rs, st', e, hi⟩ := ih st h1' h2
        exact ⟨.number st.items.length :: rs, st', by simp only [LState.run, LState.step, e], hi⟩
      | readAll =>
        obtain ⟨rs, st', e, hi⟩ := ih ⟨st.items, decide (st.items ≠ [])⟩ h1' h2
        exact ⟨.pieces (chunk sl st.items) :: rs, st', by simp only [LState.run, LState.step, e], hi⟩
      | readSome k =>
        obtain ⟨rs, st', e, hi⟩ := ih ⟨st.items, decide (k ≠ (st.items.length - 1) / sl)⟩ h1' h2
        exact ⟨.unit :: rs, st', by simp only [LState.run, LState.step, e], hi⟩
  have part1 : ∀ (cs : List (Call α)) (st : LState α), st.stale = false →
      (∀ c ∈ cs, c.isRead = false) → inRange st.items.length (cs ++ ds) →
      ∃ rs st', st.run sl (cs ++ ds) = some (rs, .ok st') ∧
        st'.items = idealItems st.items (cs ++ ds) := by
    intro cs
    induction cs with
    | nil => intro st _ _ h; exact part2 ds st hds h
    | cons c cs ih =>
      intro st hst h1 h2
      have h1' : ∀ c ∈ cs, c.isRead = false := fun d hd => h1 d (by simp [hd])
      cases c with
      | push x =>
        obtain ⟨rs, st', e, hi⟩ := ih ⟨st.items ++ [x], st.stale⟩ hst h1' (by
          simp only [List.length_append, List.length_cons, List.length_nil]; exact h2)
        refine ⟨.index (st.items.length % sl) st.items.length :: rs, st', ?_, hi⟩
        simp [LState.run, LState.step, hst] at e ⊢
        rw [e]
      | get i =>
        obtain ⟨rs, st', e, hi⟩ := ih st hst h1' h2.2
        refine ⟨.item (st.items[i]'h2.1) :: rs, st', ?_, hi⟩
        simp only [List.cons_append, LState.run, LState.step, List.getElem?_eq_getElem h2.1, e]
      | set i v =>
        obtain ⟨rs, st', e, hi⟩ := ih ⟨st.items.set i v, st.stale⟩ hst h1' (by
          simp only [List.length_set]; exact h2.2)
        refine ⟨.unit :: rs, st', ?_, hi⟩
        simp only [List.cons_append, LState.run, LState.step, if_pos h2.1, e]
      | count =>
        obtain ⟨rs, st', e, hi⟩ := ih st hst h1' h2
        exact ⟨.number st.items.length :: rs, st', by
          simp only [List.cons_append, LState.run, LState.step, e], hi⟩
      | readAll => exact absurd (h1 .readAll (by simp)) (by simp [Call.isRead])
      | readSome k => exact absurd (h1 (.readSome k) (by simp)) (by simp [Call.isRead])
  obtain ⟨rs, st', e, hi⟩ := part1 cs ⟨[], false⟩ rfl hcs hr
  obtain ⟨f', e', s, h1, h2, h3⟩ := C07_history_exact sl hsl junk _ _ _ e
  subst h1
  rw [← hi]
  exact ⟨rs, s, e', h2, h3⟩

/-- **C07 is false.** Two appends, one read loop, one more append with segment
length 2: AssertionError. -/
theorem C07_false_push_after_read :
    (SAP.new 2 (0 : Nat)).runCalls [.push 1, .push 2, .readAll, .push 3] =
      ([.index 0 0, .index 1 1, .pieces [[1, 2]]], .error .assertion) := by decide

/-- **C07 (how many appends fit after a read loop).** After a complete read
loop over `n ≥ 1` items in a state reached by pushes, exactly the appends that
fit into the segments already in use succeed. -/
theorem C07_pushes_after_read (sl : Nat) (hsl : 0 < sl) (junk : α) (xs ys : List α)
    (hx : xs ≠ []) :
    ∃ s rs t ps, (SAP.new sl junk).pushAll xs = .ok (s, rs) ∧ s.readLoop = .ok (t, ps) ∧
      ((∃ u rs', t.pushAll ys = .ok (u, rs')) ↔
        xs.length + ys.length ≤ (xs.length + sl - 1) / sl * sl) := by
  obtain ⟨s, rs, e, hi, hs, hc, hs2, _⟩ := pushAll_ok (new_inv sl junk hsl) (by
    simp [Synced, SAP.new, outA, arr]) xs
  simp only [new_contents, List.nil_append] at hc
  have hsl' : s.sl = sl := hs2
  -- tidy: more precisely the sim relation
  have hsim : ∃ s0, s0 = s ∧ (0 < s.outA.fnf → 0 < s.outA.fao) := by
    refine ⟨s, rfl, ?_⟩
    have gen : ∀ (xs : List α) (u s : SAP α) (rs : List (Int × Int)), u.Inv →
        (0 < u.outA.fnf → 0 < u.outA.fao) → u.pushAll xs = .ok (s, rs) →
        (0 < s.outA.fnf → 0 < s.outA.fao) := by
      intro xs
      induction xs with
      | nil =>
        intro u s rs _ h h'
        simp only [pushAll, Except.ok.injEq, Prod.mk.injEq] at h'
        obtain ⟨rfl, _⟩ := h'
        exact h
      | cons x xs ih =>
        intro u s rs hu h h'
        unfold pushAll at h'
        rcases pushBack_cases hu with hp | ⟨hf, hns⟩
        · obtain ⟨u1, e1, hi1, _, _, _, _, _, _, _, _, hfao⟩ := pushBack_ok hu x hp
          rw [e1] at h'
          simp only [bind, Except.bind] at h'
          cases h3 : u1.pushAll xs with
          | error _ => rw [h3] at h'; cases h'
          | ok p =>
            rw [h3] at h'
            simp only [pure, Except.pure, Except.ok.injEq, Prod.mk.injEq] at h'
            obtain ⟨rfl, _⟩ := h'
            exact ih u1 p.1 p.2 hi1 (fun _ => hfao) h3
        · rw [pushBack_err x hf hns] at h'
          cases h'
    exact gen xs _ s rs (new_inv sl junk hsl) (by simp [SAP.new, outA, arr]) e
  obtain ⟨_, _, htidy⟩ := hsim
  refine ⟨s, rs, _, _, e, readLoop_ok hi.out, ?_⟩
  have hne : s.contents ≠ [] := by rw [hc]; exact hx
  rw [if_neg hne]
  have hfao : s.outA.fao ≠ 0 := by
    intro h0
    apply hne
    rw [contents_nil_iff hi.out]
    refine ⟨?_, h0⟩
    have := hi.out.fnf0
    by_cases h1 : 0 < s.outA.fnf
    · have := htidy h1; omega
    · omega
  have hend : endCur s.outA = s.outA.fnf + 1 := by unfold endCur; rw [if_neg hfao]
  rw [hend]
  -- general statement for stale states
  have gen : ∀ (ys : List α) (u : SAP α), u.Inv → u.sl = sl → ¬ u.Synced →
      (0 < u.outA.fnf → 0 < u.outA.fao) → u.contents ≠ [] →
      ((∃ v rs', u.pushAll ys = .ok (v, rs')) ↔
        u.contents.length + ys.length ≤ (u.contents.length + sl - 1) / sl * sl) := by
    intro ys
    induction ys with
    | nil =>
      intro u hu h1 _ _ _
      simp only [pushAll, List.length_nil, Nat.add_zero]
      constructor
      · intro _
        have := Nat.div_add_mod (u.contents.length + sl - 1) sl
        have hm := Nat.mod_lt (u.contents.length + sl - 1) hsl
        rw [Nat.mul_comm] at this
        omega
      · intro _; exact ⟨u, [], rfl⟩
    | cons y ys ih =>
      intro u hu h1 h2 h3 h4
      have hfull := full_iff hu h3
      rw [h1] at hfull
      have hLpos : 0 < u.contents.length := List.length_pos_iff.2 h4
      rcases pushBack_cases hu with hp | ⟨hf, hns⟩
      · obtain ⟨u1, e1, hi1, hc1, hsl1, _, _, _, _, hcur, _, hfao1⟩ := pushBack_ok hu y hp
        have hnf : ¬ (u.outA.fao = u.sl) := by
          rcases hp with hp | hp
          · omega
          · exact absurd hp h2
        rw [h1] at hnf
        have hm : u.contents.length % sl ≠ 0 := fun hc => hnf (hfull.2 ⟨h4, hc⟩)
        have hih := ih u1 hi1 (by rw [hsl1, h1]) (by unfold Synced at *; omega) (fun _ => hfao1)
          (by rw [hc1]; simp)
        have hceil : (u1.contents.length + sl - 1) / sl = (u.contents.length + sl - 1) / sl := by
          rw [hc1, List.length_append]
          simp only [List.length_cons, List.length_nil, Nat.zero_add]
          generalize hL : u.contents.length = L at *
          rw [show L + 1 + sl - 1 = L + sl by omega, Nat.add_div_right _ hsl,
            show L + sl - 1 = (L - 1) + sl by omega, Nat.add_div_right _ hsl]
          have := Nat.succ_div (a := L - 1) (b := sl)
          rw [show L - 1 + 1 = L by omega] at this
          rw [this, if_neg (fun hd => hm (Nat.mod_eq_zero_of_dvd hd))]
        rw [hceil] at hih
        constructor
        · rintro ⟨v, rs', hv⟩
          unfold pushAll at hv
          rw [e1] at hv
          simp only [bind, Except.bind] at hv
          cases h5 : u1.pushAll ys with
          | error _ => rw [h5] at hv; cases hv
          | ok p =>
            have := hih.1 ⟨p.1, p.2, h5⟩
            rw [hc1, List.length_append] at this
            simp only [List.length_cons, List.length_nil] at this ⊢
            omega
        · intro hle
          obtain ⟨v, rs', hv⟩ := hih.2 (by
            rw [hc1, List.length_append]
            simp only [List.length_cons, List.length_nil] at hle ⊢
            omega)
          refine ⟨v, (((u.contents.length % u.sl : Nat) : Int), (u.contents.length : Int)) :: rs',
            ?_⟩
          unfold pushAll
          rw [e1]
          simp only [bind, Except.bind]
          rw [hv]
          rfl
      · constructor
        · rintro ⟨v, rs', hv⟩
          unfold pushAll at hv
          rw [pushBack_err y hf hns] at hv
          cases hv
        · intro hle
          exfalso
          rw [h1] at hf
          have hm := (hfull.1 hf).2
          generalize hL : u.contents.length = L at *
          have hd : (L + sl - 1) / sl * sl ≤ L := by
            obtain ⟨q, hq⟩ := Nat.dvd_of_mod_eq_zero hm
            have : (L + sl - 1) / sl = q := by
              rw [Nat.div_eq_iff hsl]
              rw [hq, Nat.mul_comm]
              omega
            rw [this, hq, Nat.mul_comm]
            omega
          simp only [List.length_cons] at hle
          omega
  have := gen ys (s.withCur (s.outA.fnf + 1)) (withCur_inv hi _) (by simpa using hsl')
    (by simp only [Synced, withCur_outA]; omega) (by simpa using htidy) (by simpa using hne)
  simpa [hc] using this

/-! ## C08 -/

/-- **C08 (non-empty).** `init_inout_loop` on a non-empty container: every
stored item is found, unchanged, in the "in" array at its old position, the
"out" array is empty, the first piece is announced with its length, and no
storage is released. -/
theorem C08_inout_swap {s : SAP α} (hr : Reachable s) (hne : 0 < s.getNumberOfItems) :
    ∃ s' n vin vout, s.initInoutLoop = (s', (n, some (vin, vout))) ∧
      n = min s.getNumberOfItems s.sl ∧
      vin = ⟨s'.inSel, 0⟩ ∧ vout = ⟨s'.outSel, 0⟩ ∧ s'.inSel ≠ s'.outSel ∧
      s'.getNumberOfItems = 0 ∧
      s'.getCapacity = (s.getCapacity.2, s.getCapacity.1) ∧
      ∀ i : Nat, (i : Int) < s.getNumberOfItems →
        s'.viewGet ⟨s'.inSel, ((i / s.sl : Nat) : Int)⟩ ((i % s.sl : Nat) : Int) = s.getItem i := by
  have inv := reachable_inv hr
  have hl := contents_length inv
  have hne' : s.contents ≠ [] := by
    intro hc; rw [hc] at hl; simp at hl; omega
  obtain ⟨s', e, h1, h2, h3, h4, h5, h6, h7⟩ := initInoutLoop_nonempty inv hne'
  refine ⟨s', _, _, _, e, ?_, rfl, rfl, ?_, ?_, ?_, ?_⟩
  · unfold firstCount getNumberOfItems
    obtain ⟨f, o, hf, ho, hfl, hol, hfl2, hle⟩ := inv.out.total
    rw [hf, ho]
    by_cases hf0 : f = 0
    · subst hf0; simp; omega
    · rw [if_neg (by omega)]
      have : s.sl ≤ f * s.sl := Nat.le_mul_of_pos_left _ (by omega)
      have : (s.sl : Int) ≤ (f : Int) * (s.sl : Int) := by exact_mod_cast this
      omega
  · rw [h7.sel]; cases s'.outSel <;> simp
  · simp [getNumberOfItems, h6]
  · simp [getCapacity, h5, h6, h3]
  · intro i hi
    unfold viewGet getItem
    rw [pyDivmod_nat]
    dsimp only
    have : s'.arr s'.inSel = { s.outA with cur := 0 } := h5
    rw [this]
    rfl

/-- **C08 (empty).** On an empty container `init_inout_loop` returns
`(0, None, None)` and the container stays empty and usable: any number of
appends succeeds. -/
theorem C08_inout_empty {s : SAP α} (hr : Reachable s) (he : s.getNumberOfItems = 0)
    (xs : List α) :
    ∃ s' t rs, s.initInoutLoop = (s', (0, none)) ∧ s'.getNumberOfItems = 0 ∧
      s'.pushAll xs = .ok (t, rs) ∧ t.getNumberOfItems = xs.length ∧
      ∀ (i : Nat) (h : i < xs.length), t.getItem i = .ok xs[i] := by
  have inv := reachable_inv hr
  have hl := contents_length inv
  have he' : s.contents = [] := by
    rw [← List.length_eq_zero_iff]; omega
  obtain ⟨s', e, h1, h2, h3, h4, h5, h6, h7, h8, h9⟩ := initInoutLoop_empty inv he'
  obtain ⟨t, rs, e2, ht, _, hc, _⟩ := pushAll_ok h7 h9 xs
  rw [h8, List.nil_append] at hc
  refine ⟨s', t, rs, e, ?_, e2, ?_, ?_⟩
  · rw [← contents_length h7, h8]; rfl
  · rw [← contents_length ht, hc]
  · intro i hi
    have : i < t.contents.length := by rw [hc]; exact hi
    rw [getItem_ok ht this]
    simp [hc]

/-- Non-vacuity of C08: three items with segment length 2. -/
example : ∃ s : SAP Nat, Reachable s ∧ s.getNumberOfItems = 3 := by
  refine ⟨_, Reachable.push (Reachable.push (Reachable.push (Reachable.new 2 0 (by decide))
    (x := 7) rfl) (x := 8) rfl) (x := 9) rfl, ?_⟩
  decide

end Dt
