import Verif.C.Mem
/-!
# Vocabulary for preconditions: valid buffers
-/

namespace C

/-- The `n` bytes at `p` may be read (vacuous for `n = 0`: then `p` may be null or dangling). -/
def Readable (e : Env) (p : Ptr) (n : Nat) : Prop := ∀ i, i < n → e.rd p.blk (p.off + i) = true

/-- The `n` bytes at `p` may be read and written. -/
def Writable (e : Env) (p : Ptr) (n : Nat) : Prop :=
  ∀ i, i < n → e.rd p.blk (p.off + i) = true ∧ e.wr p.blk (p.off + i) = true

/-- `p[0..n)` and `q[0..m)` have no byte in common. -/
def Disjoint (p : Ptr) (n : Nat) (q : Ptr) (m : Nat) : Prop :=
  n = 0 ∨ m = 0 ∨ p.blk ≠ q.blk ∨ p.off + n ≤ q.off ∨ q.off + m ≤ p.off

/-- The buffer `p[0..n)` is suitable for code that accesses it in units of `al` bytes: it is empty, or the platform does
not care, or its address is a multiple of `al`.  `al = 0` is for code that needs a platform that does not care. -/
def Aligned (e : Env) (al : Nat) (p : Ptr) (n : Nat) : Prop :=
  n = 0 ∨ e.strict = false ∨ (al ≠ 0 ∧ (e.base p.blk + p.off) % al = 0)

/-- A destination `dst[0..n)` that is written from front to back may overlap the source `src[0..n)` if it does not
start inside it, behind its first byte; in particular `dst = src` is allowed. -/
def OverlapOK (dst src : Ptr) (n : Nat) : Prop :=
  n = 0 ∨ dst.blk ≠ src.blk ∨ dst.off ≤ src.off ∨ src.off + n ≤ dst.off

/-- The byte `o` of object `b` belongs to `p[0..n)`. -/
def InBuf (p : Ptr) (n : Nat) (b o : Nat) : Prop := b = p.blk ∧ p.off ≤ o ∧ o < p.off + n

instance : Decidable (Disjoint p n q m) := by unfold Disjoint; infer_instance
instance : Decidable (Aligned e al p n) := by unfold Aligned; infer_instance
instance : Decidable (OverlapOK p q n) := by unfold OverlapOK; infer_instance
instance : Decidable (InBuf p n b o) := by unfold InBuf; infer_instance

end C
