import Verif.C.Array
import Verif.Proof.Sim
/-!
# Checked and unchecked programs

`Chk R f g`: the program `f` (with checked accesses to its arrays) and the program `g` (without) make the same accesses to
memory with the same values, take the same branches and use the same globals; `f` does not run into `UB.localOob`; the results
are related by `R`.
-/

namespace C

/-- See above. -/
inductive Chk {α β : Type} (R : α → β → Prop) : CM α → CM β → Prop where
  | ret {a b} : R a b → Chk R (.ret a) (.ret b)
  | ub {u} : u ≠ .localOob → Chk R (.ub u) (.ub u)
  | load {al w p k k'} : (∀ bs : List Byte, bs.length = w → Chk R (k bs) (k' bs)) → Chk R (.load al w p k) (.load al w p k')
  | store {al p bs k k'} : Chk R k k' → Chk R (.store al p bs k) (.store al p bs k')
  | branch {b k k'} : Chk R k k' → Chk R (.branch b k) (.branch b k')
  | getg {g k k'} : (∀ v, Chk R (k v) (k' v)) → Chk R (.getg g k) (.getg g k')
  | setg {g v k k'} : Chk R k k' → Chk R (.setg g v k) (.setg g v k')

variable {α β γ δ : Type}

theorem Chk.bind {R : α → β → Prop} {S : γ → δ → Prop} {f : CM α} {g : CM β} {h : α → CM γ} {h' : β → CM δ}
    (H : Chk R f g) (H' : ∀ a b, R a b → Chk S (h a) (h' b)) : Chk S (f >>= h) (g >>= h') := by
  show Chk S (CM.bind f h) (CM.bind g h')
  induction H with
  | ret r => exact H' _ _ r
  | ub hu => exact .ub hu
  | load _ ih => exact .load fun bs h1 => ih bs h1
  | store _ ih => exact .store ih
  | branch _ ih => exact .branch ih
  | getg _ ih => exact .getg fun v => ih v
  | setg _ ih => exact .setg ih

/-- Sequencing after a program without checks. -/
theorem Chk.bindEq {S : γ → δ → Prop} {f : CM α} {h : α → CM γ} {h' : α → CM δ}
    (H : Chk Eq f f) (H' : ∀ a, Chk S (h a) (h' a)) : Chk S (f >>= h) (f >>= h') :=
  H.bind fun a b e => by cases e; exact H' a

theorem Chk.imp {R S : α → β → Prop} {f : CM α} {g : CM β} (H : Chk R f g) (h : ∀ a b, R a b → S a b) : Chk S f g := by
  induction H with
  | ret r => exact .ret (h _ _ r)
  | ub hu => exact .ub hu
  | load _ ih => exact .load ih
  | store _ ih => exact .store ih
  | branch _ ih => exact .branch ih
  | getg _ ih => exact .getg ih
  | setg _ ih => exact .setg ih

theorem Chk.pure {R : α → β → Prop} {a : α} {b : β} (h : R a b) : Chk R (Pure.pure a) (Pure.pure b) := .ret h

/-- A checked access that succeeds. -/
theorem Chk.step {S : γ → δ → Prop} {f : CM α} {x : α} {h : α → CM γ} {g : CM δ} (hf : f = .ret x)
    (H : Chk S (h x) g) : Chk S (f >>= h) g := by
  subst hf
  exact H

theorem pure_ret (a : α) : (Pure.pure a : CM α) = .ret a := rfl

theorem ret_bind (a : α) (f : α → CM β) : (CM.ret a >>= f) = f a := rfl

theorem chk_assert (b : Bool) : Chk Eq (assert b) (assert b) := by
  cases b
  · exact .ub (fun h => nomatch h)
  · exact .ret rfl

/-- Two assertions with the same truth value. -/
theorem chk_assert' {b c : Bool} (h : b = c) : Chk (fun _ _ => c = true) (assert b) (assert c) := by
  subst h
  cases b
  · exact .ub (fun h => nomatch h)
  · exact .ret rfl

theorem chk_branch (b : Bool) : Chk (fun x y => x = b ∧ y = b) (branch b) (branch b) := .branch (.ret ⟨rfl, rfl⟩)

theorem chk_if {R : α → β → Prop} {b : Bool} {f g : CM α} {f' g' : CM β} (h : b = true → Chk R f f')
    (h' : b = false → Chk R g g') : Chk R (branch b >>= fun b => if b then f else g)
    (branch b >>= fun b => if b then f' else g') := by
  refine (chk_branch b).bind ?_
  rintro x y ⟨rfl, rfl⟩
  cases y
  · exact h' rfl
  · exact h rfl

theorem chk_ifThen {b : Bool} {f f' : CM Unit} (h : b = true → Chk Eq f f') :
    Chk Eq (ifThen b f) (ifThen b f') := chk_if h fun _ => .ret rfl

theorem chk_load (al w : Nat) (p : Ptr) : Chk (fun bs bs' => bs = bs' ∧ bs.length = w) (load al w p) (load al w p) :=
  .load fun _ h => .ret ⟨rfl, h⟩

theorem chk_load8 (p : Ptr) : Chk Eq (load8 p) (load8 p) := .load fun _ _ => .ret rfl
theorem chk_load64 (p : Ptr) : Chk Eq (load64 p) (load64 p) := .load fun _ _ => .ret rfl
theorem chk_loadLen (p : Ptr) : Chk Eq (loadLen p) (loadLen p) := .load fun _ _ => .ret rfl
theorem chk_store (al : Nat) (p : Ptr) (bs : List Byte) : Chk Eq (store al p bs) (store al p bs) := .store (.ret rfl)
theorem chk_store8 (p : Ptr) (b : Byte) : Chk Eq (store8 p b) (store8 p b) := .store (.ret rfl)
theorem chk_store64 (p : Ptr) (b : BitVec 64) : Chk Eq (store64 p b) (store64 p b) := .store (.ret rfl)
theorem chk_storeLen (p : Ptr) (n : Nat) : Chk Eq (storeLen p n) (storeLen p n) := .store (.ret rfl)
theorem chk_getg (g : Glob) : Chk Eq (getg g) (getg g) := .getg fun _ => .ret rfl
theorem chk_setg (g : Glob) (v : BitVec 64) : Chk Eq (setg g v) (setg g v) := .setg (.ret rfl)

/-- Loops; `I` may depend on the index. -/
theorem chk_forN {σ τ : Type} {I : Nat → σ → τ → Prop} {f : Nat → σ → CM σ} {g : Nat → τ → CM τ} {n i : Nat}
    (h : ∀ j x y, i ≤ j → j < i + n → I j x y → Chk (I (j + 1)) (f j x) (g j y)) {x : σ} {y : τ} (hx : I i x y) :
    Chk (I (i + n)) (forN n i f x) (forN n i g y) := by
  induction n generalizing i x y with
  | zero => exact (chk_branch false).bind fun _ _ _ => .ret hx
  | succ n ih =>
    refine (chk_branch true).bind fun _ _ _ => (h i x y (Nat.le_refl _) (by omega) hx).bind fun a b hab => ?_
    have := ih (i := i + 1) (fun j x y h1 h2 => h j x y (by omega) (by omega)) hab
    rwa [show i + 1 + n = i + (n + 1) by omega] at this

/-- Loops with an invariant that does not depend on the index. -/
theorem chk_forN' {σ τ : Type} {R : σ → τ → Prop} {f : Nat → σ → CM σ} {g : Nat → τ → CM τ} {n i : Nat}
    (h : ∀ j x y, i ≤ j → j < i + n → R x y → Chk R (f j x) (g j y)) {x : σ} {y : τ} (hx : R x y) :
    Chk R (forN n i f x) (forN n i g y) := chk_forN (I := fun _ => R) h hx

theorem chk_whileGe {σ τ : Type} {R : σ → τ → Prop} {r : Nat} {hr : 0 < r} {f : Nat → σ → CM σ} {g : Nat → τ → CM τ}
    (h : ∀ i x y, R x y → Chk R (f i x) (g i y)) (len i : Nat) {x : σ} {y : τ} (hx : R x y) :
    Chk R (whileGe r hr len i f x) (whileGe r hr len i g y) := by
  rw [whileGe_eq, whileGe_eq]
  exact chk_forN' (fun j x y _ _ => h j x y) hx

theorem chk_whileRem {σ τ : Type} {R : σ → τ → Prop} {r : Nat} {hr : 0 < r} {f l : Nat → σ → CM σ} {f' l' : Nat → τ → CM τ}
    {q : Nat → Nat → σ → CM σ} {q' : Nat → Nat → τ → CM τ} (hf : ∀ i x y, R x y → Chk R (f i x) (f' i y))
    (hl : ∀ i x y, R x y → Chk R (l i x) (l' i y)) (hq : ∀ i n x y, n < r → R x y → Chk R (q i n x) (q' i n y))
    (len i : Nat) {x : σ} {y : τ} (hx : R x y) :
    Chk R (whileRem r hr len i f l q x) (whileRem r hr len i f' l' q' y) := by
  induction len using Nat.strongRecOn generalizing i x y with
  | _ len ih =>
    rw [whileRem, whileRem]
    by_cases h : len > r
    · simp only [if_pos h]
      exact (chk_branch true).bind fun _ _ _ => (hf _ _ _ hx).bind fun _ _ hab => ih _ (by omega) _ hab
    · simp only [if_neg h]
      refine (chk_branch false).bind fun _ _ _ => chk_if (fun _ => hl _ _ _ hx) fun hn => hq _ _ _ _ ?_ hx
      have : ¬ len = r := of_decide_eq_false hn
      omega

theorem chk_bind_pure (f : CM α) : (f >>= fun a => pure a) = f := by
  show CM.bind f _ = f
  induction f with
  | ret a => rfl
  | ub u => rfl
  | load al w p k ih => exact congrArg _ (funext ih)
  | store al p bs k ih => exact congrArg _ ih
  | branch b k ih => exact congrArg _ ih
  | getg g k ih => exact congrArg _ (funext ih)
  | setg g v k ih => exact congrArg _ ih

/-! ## What it means for runs -/

/-- The runs have the same outcome up to `R` on the results, and it is not `UB.localOob`. -/
theorem Chk.run {R : α → β → Prop} {f : CM α} {g : CM β} (H : Chk R f g) (e : Env) (s : St) :
    (∃ a b s' tr, R a b ∧ run f e s = .ok a s' tr ∧ run g e s = .ok b s' tr) ∨
    (∃ u, u ≠ .localOob ∧ run f e s = .ub u ∧ run g e s = .ub u) := by
  have key : ∀ (ev : Ev) (o : Out α) (o' : Out β),
      ((∃ a b s' tr, R a b ∧ o = .ok a s' tr ∧ o' = .ok b s' tr) ∨ (∃ u, u ≠ .localOob ∧ o = .ub u ∧ o' = .ub u)) →
      ((∃ a b s' tr, R a b ∧ o.cons ev = .ok a s' tr ∧ o'.cons ev = .ok b s' tr) ∨
        (∃ u, u ≠ .localOob ∧ o.cons ev = .ub u ∧ o'.cons ev = .ub u)) := by
    rintro ev o o' (⟨a, b, s', tr, r, rfl, rfl⟩ | ⟨u, hu, rfl, rfl⟩)
    · exact .inl ⟨a, b, s', ev :: tr, r, rfl, rfl⟩
    · exact .inr ⟨u, hu, rfl, rfl⟩
  induction H generalizing s with
  | ret r => exact .inl ⟨_, _, _, _, r, rfl, rfl⟩
  | ub hu => exact .inr ⟨_, hu, rfl, rfl⟩
  | @load al w p k k' _ ih =>
    simp only [C.run]
    by_cases h1 : canRead e p w = true
    · by_cases h2 : alignedOk e p al = true
      · simp only [if_pos h1, if_pos h2]
        exact key _ _ _ (ih _ (by simp [bytesAt]) s)
      · simp only [if_pos h1, if_neg h2]; exact .inr ⟨.misaligned p al, (fun h => nomatch h), rfl, rfl⟩
    · simp only [if_neg h1]; exact .inr ⟨.oob p w, (fun h => nomatch h), rfl, rfl⟩
  | @store al p bs k k' _ ih =>
    simp only [C.run]
    by_cases h1 : canRead e p bs.length = true
    · by_cases h2 : alignedOk e p al = true
      · by_cases h3 : canWrite e p bs.length = true
        · simp only [if_pos h1, if_pos h2, if_pos h3]
          exact key _ _ _ (ih _)
        · simp only [if_pos h1, if_pos h2, if_neg h3]; exact .inr ⟨.readonly p, (fun h => nomatch h), rfl, rfl⟩
      · simp only [if_pos h1, if_neg h2]; exact .inr ⟨.misaligned p al, (fun h => nomatch h), rfl, rfl⟩
    · simp only [if_neg h1]; exact .inr ⟨.oob p bs.length, (fun h => nomatch h), rfl, rfl⟩
  | branch _ ih => exact key _ _ _ (ih s)
  | getg _ ih => exact key _ _ _ (ih _ s)
  | setg _ ih => exact key _ _ _ (ih _)

/-- For equal results. -/
theorem Chk.runEq {f g : CM α} (H : Chk Eq f g) (e : Env) (s : St) :
    C.run f e s = C.run g e s ∧ C.run f e s ≠ .ub .localOob := by
  rcases H.run e s with ⟨a, b, s', tr, rfl, h1, h2⟩ | ⟨u, hu, h1, h2⟩
  · rw [h1, h2]; exact ⟨rfl, fun h => nomatch h⟩
  · rw [h1, h2]; exact ⟨rfl, fun h => hu (Out.ub.inj h)⟩

/-! ## Arrays -/

@[simp] theorem Arr.length_of (l : List α) : (Arr.of l).length = l.length := by simp [Arr.of]

theorem aget_of {l : List α} {i : Nat} (h : i < l.length) : aget (Arr.of l) i = .ret l[i] := by
  simp [aget, Arr.of, List.getElem?_eq_getElem h]
  rfl

theorem aget_ofD {l : List α} {i : Nat} (d : α) (h : i < l.length) : aget (Arr.of l) i = .ret (l.getD i d) := by
  rw [aget_of h]
  simp [List.getD, List.getElem?_eq_getElem h]

theorem aget_set {a : Arr α} {i : Nat} {x : α} (h : i < a.length) : aget (a.set i (some x)) i = .ret x := by
  simp [aget, h]
  rfl

theorem aset_lt {a : Arr α} {i : Nat} {x : α} (h : i < a.length) : aset a i x = .ret (a.set i (some x)) := by
  simp [aset, h]
  rfl

theorem aset_of {l : List α} {i : Nat} {x : α} (h : i < l.length) : aset (Arr.of l) i x = .ret (Arr.of (l.set i x)) := by
  rw [aset_lt (by simpa using h)]
  simp [Arr.of, List.map_set]

/-- Reading a part of an initialised array. -/
theorem areads_of {l : List α} {o n : Nat} (h : o + n ≤ l.length) : areads (Arr.of l) o n = .ret ((l.drop o).take n) := by
  induction n generalizing o with
  | zero => simp only [areads, List.take_zero]; rfl
  | succ n ih =>
    have ho : o < l.length := by omega
    rw [areads, aget_of ho, ih (by omega)]
    rw [List.drop_eq_getElem_cons ho, List.take_succ_cons]
    rfl

/-- Writing a part of an array. -/
theorem awrites_eq {a : Arr α} {o : Nat} {xs : List α} (h : o + xs.length ≤ a.length) :
    awrites a o xs = .ret (a.take o ++ Arr.of xs ++ a.drop (o + xs.length)) := by
  induction xs generalizing a o with
  | nil => simp [awrites, Arr.of]; rfl
  | cons x xs ih =>
    have ho : o < a.length := by simp at h; omega
    rw [awrites, aset_lt ho]
    show awrites (a.set o (some x)) (o + 1) xs = _
    rw [ih (by simp at h ⊢; omega)]
    congr 1
    apply List.ext_getElem?
    intro i
    simp only [Arr.of, List.getElem?_append, List.length_append, List.length_take, List.length_set, List.length_map,
      List.getElem?_take, List.getElem?_drop, List.getElem?_set, List.map_cons, List.length_cons, List.getElem?_map]
    have e1 : min (o + 1) a.length = o + 1 := by omega
    have e2 : min o a.length = o := by omega
    rw [e1, e2]
    rcases Nat.lt_trichotomy i o with h1 | h1 | h1
    · have h2 : i < o + 1 := by omega
      have h3 : i < o + 1 + xs.length := by omega
      have h4 : i < o + (xs.length + 1) := by omega
      have h5 : o ≠ i := by omega
      simp [h1, h2, h3, h4, h5]
    · subst h1
      have h3 : i < i + 1 + xs.length := by omega
      simp [h3, ho]
    · have h2 : ¬ i < o + 1 := by omega
      have h5 : ¬ i < o := by omega
      have h6 : i - o = (i - (o + 1)) + 1 := by omega
      by_cases h3 : i < o + 1 + xs.length
      · have h4 : i < o + (xs.length + 1) := by omega
        simp [h2, h3, h4, h5, h6]
      · have h4 : ¬ i < o + (xs.length + 1) := by omega
        have h7 : o ≠ o + 1 + xs.length + (i - (o + 1 + xs.length)) := by omega
        simp only [h3, h4, if_false, if_neg h7]
        congr 1
        omega

/-- Filling the whole array. -/
theorem awrites_all {a : Arr α} {xs : List α} (h : xs.length = a.length) : awrites a 0 xs = .ret (Arr.of xs) := by
  rw [awrites_eq (by omega)]
  simp [h]

/-- A loop all of whose steps succeed. -/
theorem loopN_eq {σ τ : Type} (emb : σ → τ) {f : Nat → τ → CM τ} {g : Nat → σ → σ} {n i : Nat}
    (h : ∀ j s, i ≤ j → j < i + n → f j (emb s) = .ret (emb (g j s))) (s : σ) :
    loopN n i f (emb s) = .ret (emb ((List.range' i n).foldl (fun s j => g j s) s)) := by
  induction n generalizing i s with
  | zero => rfl
  | succ n ih =>
    rw [loopN, h i s (Nat.le_refl _) (by omega)]
    show loopN n (i + 1) f (emb (g i s)) = _
    rw [ih fun j s h1 h2 => h j s (by omega) (by omega)]
    rfl

/-- A loop with an invariant all of whose steps succeed. -/
theorem loopN_inv {σ : Type} {I : Nat → σ → Prop} {f : Nat → σ → CM σ} {n i : Nat}
    (h : ∀ j s, i ≤ j → j < i + n → I j s → ∃ s', f j s = .ret s' ∧ I (j + 1) s') {s : σ} (hs : I i s) :
    ∃ s', loopN n i f s = .ret s' ∧ I (i + n) s' := by
  induction n generalizing i s with
  | zero => exact ⟨s, rfl, hs⟩
  | succ n ih =>
    obtain ⟨t, ht, hI⟩ := h i s (Nat.le_refl _) (by omega) hs
    obtain ⟨u, hu, hJ⟩ := ih (fun j s h1 h2 => h j s (by omega) (by omega)) hI
    refine ⟨u, ?_, by rwa [show i + (n + 1) = i + 1 + n by omega]⟩
    rw [loopN, ht]
    exact hu

/-- A loop that writes consecutive elements. -/
theorem loopN_write {f : Nat → CM α} {v : Nat → α} {o n i : Nat} {a : Arr α} (hf : ∀ j, i ≤ j → j < i + n → f j = .ret (v j))
    (h : o + i + n ≤ a.length) :
    loopN n i (fun j a => do let x ← f j; aset a (o + j) x) a =
      awrites a (o + i) ((List.range' i n).map v) := by
  induction n generalizing i a with
  | zero => rfl
  | succ n ih =>
    rw [loopN, List.range'_succ, List.map_cons, awrites, hf i (Nat.le_refl _) (by omega)]
    show (aset a (o + i) (v i) >>= fun a => _) = _
    rw [aset_lt (by omega)]
    show loopN n (i + 1) _ (a.set (o + i) (some (v i))) = _
    rw [ih (fun j h1 h2 => hf j (by omega) (by omega)) (by simp; omega)]
    rfl

/-! ## Sources -/

/-- A checked and an unchecked array argument of at least `n` bytes. -/
def SrcChk (n : Nat) : CSrc → Src → Prop
  | .ext p, .ext q => p = q
  | .arr a, .loc bs => a = Arr.of bs ∧ n ≤ bs.length
  | _, _ => False

theorem chk_get {n : Nat} {x : CSrc} {y : Src} (h : SrcChk n x y) {i : Nat} (hi : i < n) : Chk Eq (x.get i) (y.get i) := by
  cases x with
  | ext p =>
    cases y with
    | ext q => cases h; exact chk_load8 _
    | loc _ => exact h.elim
  | arr a =>
    cases y with
    | ext q => exact h.elim
    | loc bs =>
      obtain ⟨rfl, hn⟩ := h
      have hb : i < bs.length := by omega
      simp only [CSrc.get, Src.get, if_pos hb, aget_ofD 0 hb]
      exact .ret rfl

end C
