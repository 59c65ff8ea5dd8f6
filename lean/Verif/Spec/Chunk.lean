/-! # Specification vocabulary: cutting a list into pieces -/

namespace Dt.Spec

/-- Cut `xs` into consecutive pieces of length `n` (the last one may be
shorter).  The first argument bounds the number of pieces. -/
def chunkAux {α : Type _} (n : Nat) : Nat → List α → List (List α)
  | 0, _ => []
  | k + 1, xs => if xs.isEmpty then [] else xs.take n :: chunkAux n k (xs.drop n)

/-- Cut `xs` into consecutive pieces of length `n`, the last one possibly
shorter, none empty. -/
def chunk {α : Type _} (n : Nat) (xs : List α) : List (List α) := chunkAux n xs.length xs

example : chunk 2 [1, 2, 3, 4, 5] = [[1, 2], [3, 4], [5]] := by decide
example : chunk 2 [1, 2, 3, 4] = [[1, 2], [3, 4]] := by decide
example : chunk 2 ([] : List Nat) = [] := by decide

theorem chunkAux_congr {α : Type _} {n : Nat} (hn : 0 < n) (k k' : Nat) (xs : List α)
    (h : xs.length ≤ k) (h' : xs.length ≤ k') : chunkAux n k xs = chunkAux n k' xs := by
  induction k generalizing k' xs with
  | zero =>
    have : xs = [] := List.length_eq_zero_iff.1 (by omega)
    subst this
    cases k' <;> simp [chunkAux]
  | succ k ih =>
    cases k' with
    | zero =>
      have : xs = [] := List.length_eq_zero_iff.1 (by omega)
      subst this
      simp [chunkAux]
    | succ k' =>
      simp only [chunkAux]
      split
      · rfl
      · rename_i hne
        have hpos : 0 < xs.length := by
          rw [List.length_pos_iff]; intro h0; simp [h0] at hne
        rw [ih k' (xs.drop n) (by simp; omega) (by simp; omega)]

theorem chunk_nil {α : Type _} (n : Nat) : chunk n ([] : List α) = [] := rfl

theorem chunk_of_ne_nil {α : Type _} {n : Nat} (hn : 0 < n) {xs : List α} (h : xs ≠ []) :
    chunk n xs = xs.take n :: chunk n (xs.drop n) := by
  have hpos : 0 < xs.length := List.length_pos_iff.2 h
  obtain ⟨k, hk⟩ : ∃ k, xs.length = k + 1 := ⟨xs.length - 1, by omega⟩
  unfold chunk
  rw [hk, chunkAux, if_neg (by simpa using h)]
  congr 1
  exact chunkAux_congr hn _ _ _ (by simp; omega) (by simp)

/-- The pieces concatenate to the list. -/
theorem chunk_flatten {α : Type _} {n : Nat} (hn : 0 < n) (xs : List α) :
    (chunk n xs).flatten = xs := by
  induction h : xs.length using Nat.strongRecOn generalizing xs with
  | ind m ih =>
    by_cases h0 : xs = []
    · subst h0; rfl
    · have hpos : 0 < xs.length := List.length_pos_iff.2 h0
      rw [chunk_of_ne_nil hn h0, List.flatten_cons,
        ih (xs.drop n).length (by simp; omega) _ rfl, List.take_append_drop]

/-- No piece is empty. -/
theorem chunk_ne_nil {α : Type _} {n : Nat} (hn : 0 < n) (xs : List α) :
    ∀ p ∈ chunk n xs, p ≠ [] := by
  induction h : xs.length using Nat.strongRecOn generalizing xs with
  | ind m ih =>
    by_cases h0 : xs = []
    · subst h0; simp [chunk_nil]
    · have hpos : 0 < xs.length := List.length_pos_iff.2 h0
      rw [chunk_of_ne_nil hn h0]
      intro p hp
      rcases List.mem_cons.1 hp with hp | hp
      · subst hp
        intro hc
        have := congrArg List.length hc
        rw [List.length_take, List.length_nil] at this
        omega
      · exact ih (xs.drop n).length (by simp; omega) _ rfl p hp

/-- All pieces but the last have length `n`. -/
theorem chunk_dropLast_length {α : Type _} {n : Nat} (hn : 0 < n) (xs : List α) :
    ∀ p ∈ (chunk n xs).dropLast, p.length = n := by
  induction h : xs.length using Nat.strongRecOn generalizing xs with
  | ind m ih =>
    by_cases h0 : xs = []
    · subst h0; simp [chunk_nil]
    · have hpos : 0 < xs.length := List.length_pos_iff.2 h0
      rw [chunk_of_ne_nil hn h0]
      intro p hp
      by_cases hd : xs.drop n = []
      · rw [hd, chunk_nil] at hp; simp at hp
      · rw [List.dropLast_cons_of_ne_nil (by rw [chunk_of_ne_nil hn hd]; simp)] at hp
        rcases List.mem_cons.1 hp with hp | hp
        · subst hp
          have : 0 < (xs.drop n).length := List.length_pos_iff.2 hd
          simp at this
          simp; omega
        · exact ih (xs.drop n).length (by simp; omega) _ rfl p hp

/-- The number of pieces is `⌈length/n⌉`. -/
theorem chunk_length {α : Type _} {n : Nat} (hn : 0 < n) (xs : List α) :
    (chunk n xs).length = (xs.length + n - 1) / n := by
  induction h : xs.length using Nat.strongRecOn generalizing xs with
  | ind m ih =>
    by_cases h0 : xs = []
    · subst h0
      simp at h
      subst h
      rw [chunk_nil, List.length_nil, Nat.div_eq_of_lt (by omega)]
    · have hpos : 0 < xs.length := List.length_pos_iff.2 h0
      rw [chunk_of_ne_nil hn h0, List.length_cons,
        ih (xs.drop n).length (by simp; omega) _ rfl, List.length_drop]
      by_cases hle : xs.length ≤ n
      · rw [show xs.length - n = 0 by omega, show (0 + n - 1) / n = 0 by
          rw [Nat.div_eq_zero_iff]; omega]
        symm
        rw [Nat.div_eq_iff hn]
        omega
      · rw [show m + n - 1 = (xs.length - n + n - 1) + n by omega,
          Nat.add_div_right _ hn]

end Dt.Spec
