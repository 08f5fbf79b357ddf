import Verif.C.Mem
/-!
# Types of accesses

The effective-type rule of C (6.5, paragraphs 6 and 7): an object declared as an array of characters may be accessed as
characters, by `memcpy`, by vector instructions for unaligned data and through a union with characters among its members, but not
through a pointer to a wider integer type.  In the models the alignment requirement `al` of an access is the size of the
integer type or of the union, and 1 for characters, `memcpy` and vectors.  (The accesses to the length cells `*clen` and
`*mlen`, which are of the type of these objects, have 1 as well.)
-/

namespace C

/-- An access to the `w` bytes at `p` with alignment requirement `al`; `write` tells stores from loads. -/
structure Access where
  write : Bool
  al : Nat
  p : Ptr
  w : Nat

/-- The accesses in the execution of a piece of code from the memory `s`. -/
def accesses : CM α → St → List Access
  | .ret _, _ => []
  | .ub _, _ => []
  | .load al w p k, s => ⟨false, al, p, w⟩ :: accesses (k (bytesAt s p w)) s
  | .store al p bs k, s => ⟨true, al, p, bs.length⟩ :: accesses k (putBytes s p bs)
  | .branch _ k, s => accesses k s
  | .getg g k, s => accesses (k (s.getg g)) s
  | .setg g v k, s => accesses k (s.setg g v)

end C
