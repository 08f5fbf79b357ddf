import Verif.C.Threads
/-!
# Interrupted executions

The state in which an observer finds memory if a call is stopped (reset, kill, power failure where memory is kept) after some of its
steps.  The steps are those of the source text in order; a step is one access to memory or a global variable, or one branch.
-/

namespace C

/-- The state after `n` steps of `f` (the last one if `f` has fewer). -/
def after : Nat → CM α → Env → St → St
  | 0, _, _, s => s
  | n + 1, f, e, s => after n (step f e s).1 e (step f e s).2

/-- The state after some attempts of `f`, each of them stopped after the given number of steps. -/
def attempts (f : CM α) (e : Env) : List Nat → St → St
  | [], s => s
  | n :: l, s => attempts f e l (after n f e s)

end C
