import Verif.C.Valid
/-!
# Two threads

Interleaving semantics: two pieces of C code share the memory and the global variables; a schedule says whose turn it is.
One step is one memory access, branch or access to a global variable.  (Sequentially consistent; a weaker memory model only
matters for the programs that are shown not to work.)
-/

namespace C

/-- One step of a thread.  A thread that has returned, or has run into undefined behaviour, does nothing. -/
def step : CM α → Env → St → CM α × St
  | .ret a, _, s => (.ret a, s)
  | .ub u, _, s => (.ub u, s)
  | .load al w p k, e, s =>
    if canRead e p w then
      if alignedOk e p al then (k (bytesAt s p w), s) else (.ub (.misaligned p al), s)
    else (.ub (.oob p w), s)
  | .store al p bs k, e, s =>
    if canRead e p bs.length then
      if alignedOk e p al then
        if canWrite e p bs.length then (k, putBytes s p bs) else (.ub (.readonly p), s)
      else (.ub (.misaligned p al), s)
    else (.ub (.oob p bs.length), s)
  | .branch _ k, _, s => (k, s)
  | .getg g k, _, s => (k (s.getg g), s)
  | .setg g v k, _, s => (k, s.setg g v)

/-- Two threads and the state they share. -/
structure Threads (α β : Type) where
  t1 : CM α
  t2 : CM β
  s : St

/-- Execution under a schedule: `true` is a step of the first thread (with access rights `e1`), `false` of the second. -/
def interleave (e1 e2 : Env) : List Bool → Threads α β → Threads α β
  | [], T => T
  | true :: l, T => interleave e1 e2 l { T with t1 := (step T.t1 e1 T.s).1, s := (step T.t1 e1 T.s).2 }
  | false :: l, T => interleave e1 e2 l { T with t2 := (step T.t2 e2 T.s).1, s := (step T.t2 e2 T.s).2 }

/-- The threads do not write memory the other one uses (they may both read the same inputs). -/
structure Separate (e1 e2 : Env) : Prop where
  left : ∀ b o, e1.wr b o = true → e2.rd b o = false
  right : ∀ b o, e2.wr b o = true → e1.rd b o = false

/-! ## Any number of threads -/

/-- Threads and the state they share. -/
structure Pool (ι α : Type) where
  t : ι → CM α
  s : St

/-- Execution under a schedule, the list of the threads whose turn it is; `es i` are the access rights of thread `i`. -/
def schedule {ι α : Type} [DecidableEq ι] (es : ι → Env) : List ι → Pool ι α → Pool ι α
  | [], T => T
  | i :: l, T => schedule es l
    ⟨fun j => if j = i then (step (T.t i) (es i) T.s).1 else T.t j, (step (T.t i) (es i) T.s).2⟩

/-- A place in memory or a global variable. -/
inductive Place where
  | byte (b o : Nat)
  | glob (g : Glob)

/-- The next step of the thread writes this place. -/
def NextWrites : CM α → Place → Prop
  | .store _ p bs _, .byte b o => b = p.blk ∧ p.off ≤ o ∧ o < p.off + bs.length
  | .setg g _ _, .glob g' => g = g'
  | _, _ => False

/-- The next step of the thread reads or writes this place. -/
def NextUses : CM α → Place → Prop
  | .load _ w p _, .byte b o => b = p.blk ∧ p.off ≤ o ∧ o < p.off + w
  | .store _ p bs _, .byte b o => b = p.blk ∧ p.off ≤ o ∧ o < p.off + bs.length
  | .getg g _, .glob g' => g = g'
  | .setg g _ _, .glob g' => g = g'
  | _, _ => False

/-- Two threads are about to use the same place, one of them for writing. -/
def DataRace {ι α : Type} (T : Pool ι α) : Prop := ∃ i j x, i ≠ j ∧ NextWrites (T.t i) x ∧ NextUses (T.t j) x

end C
