import Verif.C.Mem
/-!
# Local arrays and constant tables with checked accesses

An array declared in a function or a constant table is a list of elements; `none` is an element that has not been written
since the array was declared.  Reading or writing outside the array, and reading an element that has not been written, is the
outcome `UB.localOob`.
-/

namespace C

/-- A local array or table of `length` elements; `none`: not written yet. -/
abbrev Arr (α : Type) := List (Option α)

/-- `T a[n];` -/
def Arr.new {α : Type} (n : Nat) : Arr α := List.replicate n none

/-- `const T a[] = { ... };` -/
def Arr.of {α : Type} (l : List α) : Arr α := l.map some

/-- `a[i]` -/
def aget {α : Type} (a : Arr α) (i : Nat) : CM α :=
  match a[i]? with
  | some (some x) => pure x
  | _ => ub .localOob

/-- `a[i] = x` -/
def aset {α : Type} (a : Arr α) (i : Nat) (x : α) : CM (Arr α) :=
  if i < a.length then pure (a.set i (some x)) else ub .localOob

/-- `for (i = i0; n times; i++) body`: a loop with a compile-time bound, not recorded as branches. -/
def loopN {σ : Type} : (n i : Nat) → (Nat → σ → CM σ) → σ → CM σ
  | 0, _, _, s => pure s
  | n + 1, i, f, s => do
    let s' ← f i s
    loopN n (i + 1) f s'

/-- The elements `a[o] .. a[o+n-1]`, read as a whole (`memcpy` from the array, or an access through a wider type). -/
def areads {α : Type} (a : Arr α) (o : Nat) : (n : Nat) → CM (List α)
  | 0 => pure []
  | n + 1 => do
    let x ← aget a o
    let xs ← areads a (o + 1) n
    pure (x :: xs)

/-- Write the elements `a[o], a[o+1], ..` as a whole (`memcpy` to the array, or an access through a wider type). -/
def awrites {α : Type} (a : Arr α) (o : Nat) : List α → CM (Arr α)
  | [] => pure a
  | x :: xs => do
    let a ← aset a o x
    awrites a (o + 1) xs

/-- A read-only byte array argument: an object of the caller, or a local array or table. -/
inductive CSrc where
  | ext (p : Ptr)
  | arr (a : Arr Byte)

/-- `src[i]` -/
def CSrc.get (src : CSrc) (i : Nat) : CM Byte :=
  match src with
  | .ext p => load8 (p + i)
  | .arr a => aget a i

end C
