import Verif.Proof.Footprint
import Verif.Proof.Runs
/-!
# Programs with the same shape

`Sim st gl R f g`: the programs `f` and `g` make the same accesses to memory (addresses and widths), take the same branches and
use the same globals, whatever values they read; their results are related by `R`.  With `st = false` they do not store to
memory, with `gl = false` they do not use global variables.
-/

namespace C

/-- See above. -/
inductive Sim (st gl : Bool) {α β : Type} (R : α → β → Prop) : CM α → CM β → Prop where
  | ret {a b} : R a b → Sim st gl R (.ret a) (.ret b)
  | ub {u v} : Sim st gl R (.ub u) (.ub v)
  | load {al w p k k'} : (∀ bs bs' : List Byte, bs.length = w → bs'.length = w → Sim st gl R (k bs) (k' bs')) →
      Sim st gl R (.load al w p k) (.load al w p k')
  | store {al p bs bs' k k'} : st = true → bs.length = bs'.length → Sim st gl R k k' →
      Sim st gl R (.store al p bs k) (.store al p bs' k')
  | branch {b k k'} : Sim st gl R k k' → Sim st gl R (.branch b k) (.branch b k')
  | getg {g k k'} : gl = true → (∀ v v', Sim st gl R (k v) (k' v')) → Sim st gl R (.getg g k) (.getg g k')
  | setg {g v v' k k'} : gl = true → Sim st gl R k k' → Sim st gl R (.setg g v k) (.setg g v' k')

variable {st gl : Bool} {α β γ δ : Type}

theorem Sim.bind {R : α → β → Prop} {S : γ → δ → Prop} {f : CM α} {g : CM β} {h : α → CM γ} {h' : β → CM δ}
    (H : Sim st gl R f g) (H' : ∀ a b, R a b → Sim st gl S (h a) (h' b)) : Sim st gl S (f >>= h) (g >>= h') := by
  show Sim st gl S (CM.bind f h) (CM.bind g h')
  induction H with
  | ret r => exact H' _ _ r
  | ub => exact .ub
  | load _ ih => exact .load fun bs bs' h1 h2 => ih bs bs' h1 h2
  | store h1 h2 _ ih => exact .store h1 h2 ih
  | branch _ ih => exact .branch ih
  | getg h _ ih => exact .getg h fun v v' => ih v v'
  | setg h _ ih => exact .setg h ih

theorem Sim.imp {R S : α → β → Prop} {f : CM α} {g : CM β} (H : Sim st gl R f g) (h : ∀ a b, R a b → S a b) :
    Sim st gl S f g := by
  induction H with
  | ret r => exact .ret (h _ _ r)
  | ub => exact .ub
  | load _ ih => exact .load ih
  | store h1 h2 _ ih => exact .store h1 h2 ih
  | branch _ ih => exact .branch ih
  | getg h _ ih => exact .getg h ih
  | setg h _ ih => exact .setg h ih

/-- Fewer restrictions. -/
theorem Sim.weaken {R : α → β → Prop} {f : CM α} {g : CM β} {st' gl' : Bool} (H : Sim st gl R f g)
    (hs : st = true → st' = true) (hg : gl = true → gl' = true) : Sim st' gl' R f g := by
  induction H with
  | ret r => exact .ret r
  | ub => exact .ub
  | load _ ih => exact .load ih
  | store h1 h2 _ ih => exact .store (hs h1) h2 ih
  | branch _ ih => exact .branch ih
  | getg h _ ih => exact .getg (hg h) ih
  | setg h _ ih => exact .setg (hg h) ih

theorem Sim.pure {R : α → β → Prop} {a : α} {b : β} (h : R a b) : Sim st gl R (Pure.pure a) (Pure.pure b) := .ret h

/-- No information about the results. -/
abbrev Any {α β : Type} : α → β → Prop := fun _ _ => True

theorem sim_assert (b : Bool) : Sim st gl (Any (α := Unit) (β := Unit)) (assert b) (assert b) := by
  cases b
  · exact .ub
  · exact .ret trivial

theorem sim_branch (b : Bool) : Sim st gl (fun x y => x = b ∧ y = b) (branch b) (branch b) := .branch (.ret ⟨rfl, rfl⟩)

theorem sim_if {R : α → β → Prop} {b : Bool} {f g : CM α} {f' g' : CM β} (h : b = true → Sim st gl R f f')
    (h' : b = false → Sim st gl R g g') : Sim st gl R (branch b >>= fun b => if b then f else g)
    (branch b >>= fun b => if b then f' else g') := by
  refine (sim_branch b).bind ?_
  rintro x y ⟨rfl, rfl⟩
  cases y
  · exact h' rfl
  · exact h rfl

theorem sim_ifThen {b : Bool} {f f' : CM Unit} (h : b = true → Sim st gl Any f f') :
    Sim st gl Any (ifThen b f) (ifThen b f') := sim_if h fun _ => .ret trivial

theorem sim_load (al w : Nat) (p : Ptr) :
    Sim st gl (fun bs bs' => bs.length = w ∧ bs'.length = w) (load al w p) (load al w p) :=
  .load fun _ _ h h' => .ret ⟨h, h'⟩

theorem sim_load8 (p : Ptr) : Sim st gl Any (load8 p) (load8 p) := (sim_load 1 1 p).bind fun _ _ _ => .ret trivial
theorem sim_load64 (p : Ptr) : Sim st gl Any (load64 p) (load64 p) := (sim_load 8 8 p).bind fun _ _ _ => .ret trivial

theorem sim_store {al : Nat} {p : Ptr} {bs bs' : List Byte} (h : bs.length = bs'.length) :
    Sim true gl Any (store al p bs) (store al p bs') := .store rfl h (.ret trivial)

theorem sim_store8 (p : Ptr) (b b' : Byte) : Sim true gl Any (store8 p b) (store8 p b') := sim_store rfl
theorem sim_store64 (p : Ptr) (x y : BitVec 64) : Sim true gl Any (store64 p x) (store64 p y) :=
  sim_store (by simp [toLe64])
theorem sim_storeLen (p : Ptr) (x : Nat) : Sim true gl Any (storeLen p x) (storeLen p x) := sim_store rfl

theorem sim_getg (g : Glob) : Sim st true Any (getg g) (getg g) := .getg rfl fun _ _ => .ret trivial
theorem sim_setg (g : Glob) (v v' : BitVec 64) : Sim st true Any (setg g v) (setg g v') := .setg rfl (.ret trivial)

/-- Array arguments of the same shape. -/
def SrcSim : Src → Src → Prop
  | .ext p, .ext q => p = q
  | .loc bs, .loc bs' => bs.length = bs'.length
  | _, _ => False

theorem sim_get {x y : Src} (h : SrcSim x y) (i : Nat) : Sim st gl Any (x.get i) (y.get i) := by
  cases x with
  | ext p =>
    cases y with
    | ext q => cases h; exact sim_load8 _
    | loc _ => exact h.elim
  | loc bs =>
    cases y with
    | ext q => exact h.elim
    | loc bs' =>
      have h : bs.length = bs'.length := h
      unfold Src.get
      by_cases hi : i < bs.length
      · simp only [if_pos hi, if_pos (h ▸ hi)]; exact .ret trivial
      · simp only [if_neg hi, if_neg (h ▸ hi)]; exact .ub

theorem sim_forN {σ τ : Type} {R : σ → τ → Prop} {f : Nat → σ → CM σ} {g : Nat → τ → CM τ}
    (h : ∀ i x y, R x y → Sim st gl R (f i x) (g i y)) (n i : Nat) {x : σ} {y : τ} (hx : R x y) :
    Sim st gl R (forN n i f x) (forN n i g y) := by
  induction n generalizing i x y with
  | zero => exact (sim_branch false).bind fun _ _ _ => .ret hx
  | succ n ih =>
    exact (sim_branch true).bind fun _ _ _ => (h i x y hx).bind fun a b hab => ih (i + 1) hab

theorem sim_whileGe {σ τ : Type} {R : σ → τ → Prop} {r : Nat} {hr : 0 < r} {f : Nat → σ → CM σ} {g : Nat → τ → CM τ}
    (h : ∀ i x y, R x y → Sim st gl R (f i x) (g i y)) (len i : Nat) {x : σ} {y : τ} (hx : R x y) :
    Sim st gl R (whileGe r hr len i f x) (whileGe r hr len i g y) := by
  rw [whileGe_eq, whileGe_eq]
  exact sim_forN h _ _ hx

theorem sim_whileRem {σ τ : Type} {R : σ → τ → Prop} {r : Nat} {hr : 0 < r} {f l : Nat → σ → CM σ} {f' l' : Nat → τ → CM τ}
    {q : Nat → Nat → σ → CM σ} {q' : Nat → Nat → τ → CM τ} (hf : ∀ i x y, R x y → Sim st gl R (f i x) (f' i y))
    (hl : ∀ i x y, R x y → Sim st gl R (l i x) (l' i y)) (hq : ∀ i n x y, R x y → Sim st gl R (q i n x) (q' i n y))
    (len i : Nat) {x : σ} {y : τ} (hx : R x y) :
    Sim st gl R (whileRem r hr len i f l q x) (whileRem r hr len i f' l' q' y) := by
  rw [whileRem_eq, whileRem_eq]
  refine (sim_forN hf _ _ hx).bind fun x y h => ?_
  exact sim_if (fun _ => hl _ _ _ h) fun _ => hq _ _ _ _ h

/-! ## What it means for runs -/

/-- Two runs behave alike: same trace and related results, or both undefined. -/
def Alike (R : α → St → β → St → Prop) : Out α → Out β → Prop
  | .ok a s tr, .ok b t tr' => tr = tr' ∧ R a s b t
  | .ub _, .ub _ => True
  | _, _ => False

theorem Alike.cons {R : α → St → β → St → Prop} {o : Out α} {o' : Out β} (ev : Ev) (h : Alike R o o') :
    Alike R (o.cons ev) (o'.cons ev) := by
  cases o <;> cases o' <;> first | exact h | exact ⟨by rw [h.1], h.2⟩

theorem Alike.imp {R S : α → St → β → St → Prop} {o : Out α} {o' : Out β} (h : Alike R o o')
    (hi : ∀ a s b t, R a s b t → S a s b t) : Alike S o o' := by
  cases o <;> cases o' <;> first | exact h | exact ⟨h.1, hi _ _ _ _ h.2⟩

/-- Programs of the same shape run alike from any two memories; without stores memory stays unchanged. -/
theorem Sim.alike {R : α → β → Prop} {f : CM α} {g : CM β} (H : Sim st gl R f g) (e : Env) (s t : St) :
    Alike (fun a s' b t' => R a b ∧ (st = false → s'.mem = s.mem ∧ t'.mem = t.mem)) (run f e s) (run g e t) := by
  induction H generalizing s t with
  | ret r => exact ⟨rfl, r, fun _ => ⟨rfl, rfl⟩⟩
  | ub => trivial
  | @load al w p k k' _ ih =>
    simp only [run]
    by_cases h1 : canRead e p w = true
    · by_cases h2 : alignedOk e p al = true
      · simp only [if_pos h1, if_pos h2]
        exact (ih _ _ (by simp [bytesAt]) (by simp [bytesAt]) s t).cons _
      · simp only [if_pos h1, if_neg h2]; trivial
    · simp only [if_neg h1]; trivial
  | @store al p bs bs' k k' h0 hl _ ih =>
    simp only [run, ← hl]
    by_cases h1 : canRead e p bs.length = true
    · by_cases h2 : alignedOk e p al = true
      · by_cases h3 : canWrite e p bs.length = true
        · simp only [if_pos h1, if_pos h2, if_pos h3]
          refine (Alike.imp (ih _ _) ?_).cons _
          exact fun a s' b t' h => ⟨h.1, fun hs => by rw [h0] at hs; exact nomatch hs⟩
        · simp only [if_pos h1, if_pos h2, if_neg h3]; trivial
      · simp only [if_pos h1, if_neg h2]; trivial
    · simp only [if_neg h1]; trivial
  | branch _ ih => exact (ih s t).cons _
  | getg _ _ ih => exact (ih _ _ s t).cons _
  | @setg g v v' k k' _ _ ih =>
    refine (Alike.imp (ih _ _) ?_).cons _
    refine fun a s' b t' h => ⟨h.1, fun hs => ?_⟩
    have h := h.2 hs
    cases g <;> exact h

/-- Sequencing. -/
theorem Alike.bind {R : α → St → β → St → Prop} {S : γ → St → δ → St → Prop} {f : CM α} {g : CM β} {h : α → CM γ}
    {h' : β → CM δ} {e : Env} {s t : St} (H : Alike R (run f e s) (run g e t))
    (H' : ∀ a s' b t', R a s' b t' → Alike S (run (h a) e s') (run (h' b) e t')) :
    Alike S (run (f >>= h) e s) (run (g >>= h') e t) := by
  rw [run_bind, run_bind]
  generalize run f e s = o at H
  generalize run g e t = o' at H
  cases o with
  | ub u => cases o' with
    | ub v => trivial
    | ok b t' tr' => exact H.elim
  | ok a s' tr => cases o' with
    | ub v => exact H.elim
    | ok b t' tr' =>
      have H2 := H' a s' b t' H.2
      simp only [Out.andThen]
      generalize run (h a) e s' = o at H2
      generalize run (h' b) e t' = o' at H2
      cases o <;> cases o' <;> first | exact H2 | exact ⟨by rw [H.1, H2.1], H2.2⟩

end C
