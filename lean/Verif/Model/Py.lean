/-!
# Python run-time conventions used by the models

Exceptions are values of `Err`; a function that can raise returns `Except Err _`.
-/

namespace Dt

/-- The ways in which a modelled call can fail.  One constructor per Python
exception class that the modelled code can raise, plus `exit` (`sys.exit` /
C++ `exit(EXIT_FAILURE)`) and `fuel`: the bound given to a `while` loop of the
source was exhausted (the theorems show that this never happens).  The three
RuntimeErrors of the facet-crossing loop, which differ in their message only
(Particle_Module.py:1632, 1691, 1792), are kept apart as `tooMany`, `sameFacet`
and `noFacet`.  For the C++ code there are `abort` (a failing `assert`) and `ub` (an access
outside an array, which C++ does not check). -/
inductive Err where
  | assertion
  | index
  | value
  | runtime
  | attribute
  | type
  | name
  | key
  | zerodiv
  | tooMany
  | sameFacet
  | noFacet
  | exit
  | fuel
  | abort
  | ub
  deriving DecidableEq, Repr

/-- Results can be compared (used by the concrete cases beside the theorems). -/
instance {ε α : Type _} [DecidableEq ε] [DecidableEq α] : DecidableEq (Except ε α)
  | .ok a, .ok b => if h : a = b then isTrue (by rw [h]) else isFalse (by simp [h])
  | .error a, .error b => if h : a = b then isTrue (by rw [h]) else isFalse (by simp [h])
  | .ok _, .error _ => isFalse (by simp)
  | .error _, .ok _ => isFalse (by simp)

/-- `none` is an IndexError. -/
def orIndexErr {β : Type _} : Option β → Except Err β
  | some b => .ok b
  | none => .error .index

/-- Python list / 1-d NumPy subscript `xs[i]` for reading: indices `0..len-1`
count from the front, `-len..-1` from the back, anything else is an
IndexError. -/
def pyGet {β : Type _} (xs : List β) (i : Int) : Except Err β :=
  if 0 ≤ i then orIndexErr xs[i.toNat]?
  else if 0 ≤ i + xs.length then orIndexErr xs[(i + xs.length).toNat]?
  else .error .index

/-- Python list / 1-d NumPy assignment `xs[i] = v`. -/
def pySet {β : Type _} (xs : List β) (i : Int) (v : β) : Except Err (List β) :=
  if 0 ≤ i then
    if i.toNat < xs.length then .ok (xs.set i.toNat v) else .error .index
  else if 0 ≤ i + xs.length then
    .ok (xs.set (i + xs.length).toNat v)
  else .error .index

/-- Python slice `xs[0:n]`: a non-negative `n` is clipped to the length, a
negative `n` counts from the back. -/
def pySlice0 {β : Type _} (xs : List β) (n : Int) : List β :=
  if 0 ≤ n then xs.take n.toNat else xs.take (n + xs.length).toNat

/-- Python `divmod(i, n)` for `n > 0` (floored division). -/
def pyDivmod (i : Int) (n : Nat) : Int × Int := (Int.fdiv i n, Int.fmod i n)

/-- Kept in mind for NumPy bit tests `flags & mask != 0` on unsigned flags. -/
def hasFlag (flags mask : Nat) : Bool := (flags &&& mask) != 0

end Dt
