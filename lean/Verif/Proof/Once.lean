import Verif.C.Crash
import Verif.Proof.Shape
/-!
# Code that writes each byte at most once

`Once f A Q`: whatever `f` reads, it writes only bytes in `A`, each of them at most once, and its result satisfies `Q`.  Then each byte of
memory has at all times its old or its final value (`Tidy`).
-/

namespace C

variable {α β : Type}

/-- See above. -/
def Once : CM α → (Nat → Nat → Prop) → (α → Prop) → Prop
  | .ret a, _, Q => Q a
  | .ub _, _, _ => True
  | .load _ w _ k, A, Q => ∀ bs, bs.length = w → Once (k bs) A Q
  | .store _ p bs k, A, Q =>
    (∀ b o, InBuf p bs.length b o → A b o) ∧ Once k (fun b o => A b o ∧ ¬ InBuf p bs.length b o) Q
  | .branch _ k, A, Q => Once k A Q
  | .getg _ k, A, Q => ∀ v, Once (k v) A Q
  | .setg _ _ k, A, Q => Once k A Q

theorem Once.mono {f : CM α} {A B : Nat → Nat → Prop} {Q R : α → Prop} (h : Once f A Q) (hA : ∀ b o, A b o → B b o)
    (hQ : ∀ a, Q a → R a) : Once f B R := by
  induction f generalizing A B with
  | ret a => exact hQ a h
  | ub u => trivial
  | load al w p k ih => exact fun bs hb => ih bs (h bs hb) hA
  | store al p bs k ih => exact ⟨fun b o hb => hA b o (h.1 b o hb), ih h.2 fun b o hb => ⟨hA b o hb.1, hb.2⟩⟩
  | branch b k ih => exact ih h hA
  | getg g k ih => exact fun v => ih v (h v) hA
  | setg g v k ih => exact ih h hA

theorem Once.bind {f : CM α} {g : α → CM β} {A B : Nat → Nat → Prop} {Q : α → Prop} {R : β → Prop} (h : Once f A Q)
    (hg : ∀ a, Q a → Once (g a) B R) (hd : ∀ b o, A b o → B b o → False) : Once (f >>= g) (fun b o => A b o ∨ B b o) R := by
  show Once (CM.bind f g) _ R
  induction f generalizing A with
  | ret a => exact (hg a h).mono (fun _ _ => Or.inr) fun _ h => h
  | ub u => trivial
  | load al w p k ih => exact fun bs hb => ih bs (h bs hb) hd
  | store al p bs k ih =>
    refine ⟨fun b o hb => Or.inl (h.1 b o hb), ?_⟩
    refine (ih h.2 fun b o h1 => hd b o h1.1).mono (fun b o hb => ?_) fun _ h => h
    rcases hb with hb | hb
    · exact ⟨Or.inl hb.1, hb.2⟩
    · exact ⟨Or.inr hb, fun hp => hd b o (h.1 b o hp) hb⟩
  | branch b k ih => exact ih h hd
  | getg g k ih => exact fun v => ih v (h v) hd
  | setg g v k ih => exact ih h hd

/-- Code that does not store. -/
theorem Sim.once {gl : Bool} {R : α → β → Prop} {f : CM α} {g : CM β} (h : Sim false gl R f g) : Once f (fun _ _ => False) fun _ => True := by
  induction h with
  | ret _ => trivial
  | ub => trivial
  | load _ ih => exact fun bs hb => ih bs bs hb hb
  | store h => exact nomatch h
  | branch _ ih => exact ih
  | getg _ _ ih => exact fun v => ih v v
  | setg _ _ ih => exact ih

/-- First code that does not store. -/
theorem Once.pre {gl : Bool} {S : α → α → Prop} {f : CM α} {g : α → CM β} {B : Nat → Nat → Prop} {R : β → Prop}
    (h : Sim false gl S f f) (hg : ∀ a, Once (g a) B R) : Once (f >>= g) B R :=
  (h.once.bind (fun a _ => hg a) fun _ _ h => h.elim).mono (fun _ _ h => h.elim False.elim id) fun _ h => h

/-- A loop that does not store. -/
theorem Once.loop {σ : Type} {body : Nat → σ → CM σ} (h : ∀ i s, Once (body i s) (fun _ _ => False) fun _ => True) (n i : Nat) (s : σ) :
    Once (C.forN n i body s) (fun _ _ => False) fun _ => True := by
  induction n generalizing i s with
  | zero => trivial
  | succ n ih =>
    show Once (body i s >>= fun s' => C.forN n (i + 1) body s') _ _
    exact ((h i s).bind (fun s' _ => ih (i + 1) s') fun _ _ h => h.elim).mono (fun _ _ h => h.elim id id) fun _ h => h

theorem Once.branch {b : Bool} {g : Bool → CM β} {B : Nat → Nat → Prop} {R : β → Prop} (h : Once (g b) B R) : Once (C.branch b >>= g) B R := h

theorem Once.pure {a : α} {A : Nat → Nat → Prop} {Q : α → Prop} (h : Q a) : Once (Pure.pure a : CM α) A Q := h

theorem Once.store (al : Nat) (p : Ptr) (bs : List Byte) {A : Nat → Nat → Prop} (h : ∀ b o, InBuf p bs.length b o → A b o) :
    Once (C.store al p bs) A fun _ => True := ⟨h, trivial⟩

/-! ## Ranges of a buffer -/

/-- Bytes `c[a]`, ..., `c[b-1]`. -/
def Range (c : Ptr) (a b : Nat) : Nat → Nat → Prop := fun blk o => blk = c.blk ∧ c.off + a ≤ o ∧ o < c.off + b

theorem inBuf_range (c : Ptr) (a n blk o : Nat) (h : InBuf (c + a) n blk o) : Range c a (a + n) blk o := by
  obtain ⟨h1, h2, h3⟩ := h
  exact ⟨h1, h2, by have h3 : o < c.off + a + n := h3; omega⟩

theorem Once.widen {f : CM α} {c : Ptr} {a b a' b' : Nat} {Q : α → Prop} (h : Once f (Range c a b) Q) (ha : a' ≤ a) (hb : b ≤ b') :
    Once f (Range c a' b') Q :=
  h.mono (fun _ _ ⟨h1, h2, h3⟩ => ⟨h1, by omega, by omega⟩) fun _ h => h

theorem Once.shift {f : CM α} {c : Ptr} {d a b : Nat} {Q : α → Prop} (h : Once f (Range (c + d) a b) Q) : Once f (Range c (d + a) (d + b)) Q :=
  h.mono (fun _ _ ⟨h1, h2, h3⟩ => ⟨h1, by have h2 : c.off + d + a ≤ _ := h2; omega, by have h3 : _ < c.off + d + b := h3; omega⟩) fun _ h => h

theorem Once.seq {f : CM α} {g : α → CM β} {c : Ptr} {i j k : Nat} {Q : α → Prop} {R : β → Prop} (h : Once f (Range c i j) Q)
    (hg : ∀ a, Q a → Once (g a) (Range c j k) R) (hij : i ≤ j) (hjk : j ≤ k) : Once (f >>= g) (Range c i k) R :=
  (h.bind hg fun _ _ ⟨_, _, h1⟩ ⟨_, h2, _⟩ => by omega).mono
    (fun _ _ h => by
      rcases h with ⟨h1, h2, h3⟩ | ⟨h1, h2, h3⟩
      · exact ⟨h1, by omega, by omega⟩
      · exact ⟨h1, by omega, by omega⟩) fun _ h => h

theorem Once.store' (al : Nat) (c : Ptr) (i n : Nat) (bs : List Byte) (h : bs.length ≤ n) :
    Once (C.store al (c + i) bs) (Range c i (i + n)) fun _ => True :=
  (Once.store al _ bs (inBuf_range c i _)).widen (Nat.le_refl _) (by omega)

theorem Once.store8 (c : Ptr) (i : Nat) (b : Byte) : Once (C.store8 (c + i) b) (Range c i (i + 1)) fun _ => True :=
  Once.store' 1 c i 1 [b] (Nat.le_refl _)

theorem Once.store64 (c : Ptr) (i : Nat) (x : BitVec 64) : Once (C.store64 (c + i) x) (Range c i (i + 8)) fun _ => True :=
  Once.store' 8 c i 8 _ (by simp)

theorem Once.forN {σ : Type} {c : Ptr} (lo : Nat → Nat) (I : Nat → σ → Prop) {body : Nat → σ → CM σ} (hlo : ∀ i, lo i ≤ lo (i + 1))
    (h : ∀ i s, I i s → Once (body i s) (Range c (lo i) (lo (i + 1))) (I (i + 1))) (n i : Nat) (s : σ) (hs : I i s) :
    Once (C.forN n i body s) (Range c (lo i) (lo (i + n))) (I (i + n)) := by
  induction n generalizing i s with
  | zero => exact hs
  | succ n ih =>
    have hm : ∀ n, lo (i + 1) ≤ lo (i + 1 + n) := by
      intro n
      induction n with
      | zero => exact Nat.le_refl _
      | succ n ih => exact Nat.le_trans ih (hlo _)
    have he : i + (n + 1) = i + 1 + n := by omega
    rw [he]
    show Once (body i s >>= fun s' => C.forN n (i + 1) body s') _ _
    exact (h i s hs).seq (fun s' hs' => ih (i + 1) s' hs') (hlo i) (hm n)

theorem Once.whileGe {σ : Type} {c : Ptr} {r : Nat} (hr : 0 < r) {body : Nat → σ → CM σ}
    (h : ∀ i s, Once (body i s) (Range c (r * i) (r * i + r)) fun _ => True) (len i : Nat) (s : σ) :
    Once (C.whileGe r hr len i body s) (Range c (r * i) (r * (i + len / r))) fun _ => True := by
  induction len using Nat.strongRecOn generalizing i s with
  | _ len ih =>
    rw [C.whileGe]
    split
    · rename_i hl
      have e : i + len / r = i + 1 + (len - r) / r := by rw [Nat.div_eq_sub_div hr hl]; omega
      have e2 : r * (i + 1) = r * i + r := Nat.mul_succ r i
      refine Once.branch ?_
      rw [e]
      refine (h i s).seq (fun s' _ => ?_) (by omega) ?_
      · have := ih (len - r) (by omega) (i + 1) s'
        rwa [e2] at this
      · rw [← e2]; exact Nat.mul_le_mul_left _ (Nat.le_add_right _ _)
    · exact trivial

theorem Once.whileRem {σ : Type} {c : Ptr} {r : Nat} (hr : 0 < r) {full last : Nat → σ → CM σ} {part : Nat → Nat → σ → CM σ} (len : Nat)
    (h1 : ∀ i s, r * i + r < len → Once (full i s) (Range c (r * i) (r * i + r)) fun _ => True)
    (h2 : ∀ i s, r * i + r = len → Once (last i s) (Range c (r * i) (r * i + r)) fun _ => True)
    (h3 : ∀ i m s, m < r → r * i + m = len → Once (part i m s) (Range c (r * i) (r * i + m)) fun _ => True) (rem i : Nat) (s : σ)
    (he : r * i + rem = len) : Once (C.whileRem r hr rem i full last part s) (Range c (r * i) len) fun _ => True := by
  induction rem using Nat.strongRecOn generalizing i s with
  | _ rem ih =>
    rw [C.whileRem]
    split
    · have e2 : r * (i + 1) = r * i + r := Nat.mul_succ r i
      refine Once.branch ?_
      refine (h1 i s (by omega)).seq (fun s' _ => ?_) (by omega) (by omega)
      have := ih (rem - r) (by omega) (i + 1) s' (by omega)
      rwa [e2] at this
    · refine Once.branch (Once.branch ?_)
      by_cases hm : rem = r
      · rw [if_pos (by simpa using hm)]
        exact (h2 i s (by omega)).widen (Nat.le_refl _) (by omega)
      · rw [if_neg (by simpa using hm)]
        exact (h3 i rem s (by omega) he).widen (Nat.le_refl _) (by omega)

theorem Once.ifThen {b : Bool} {f : CM Unit} {A : Nat → Nat → Prop} (h : b = true → Once f A fun _ => True) :
    Once (C.ifThen b f) A fun _ => True := by
  cases b
  · exact trivial
  · exact h rfl

/-! ## Interrupted executions -/

theorem after_ret (n : Nat) (a : α) (e : Env) (s : St) : after n (.ret a) e s = s := by
  induction n with
  | zero => rfl
  | succ n ih => exact ih

theorem after_ub (n : Nat) (u : UB) (e : Env) (s : St) : after n (.ub u : CM α) e s = s := by
  induction n with
  | zero => rfl
  | succ n ih => exact ih

/-- An interrupted sequence is interrupted in the first or in the second part. -/
theorem after_bind (n : Nat) (f : CM α) (g : α → CM β) (e : Env) (s : St) :
    after n (f >>= g) e s = after n f e s ∨ ∃ r s1 m, Runs f e s r s1 ∧ after n (f >>= g) e s = after m (g r) e s1 := by
  show after n (CM.bind f g) e s = _ ∨ ∃ r s1 m, _ ∧ after n (CM.bind f g) e s = _
  induction f generalizing n s with
  | ret a => exact Or.inr ⟨a, s, n, ⟨[], rfl⟩, rfl⟩
  | ub u => left; rw [after_ub]; exact after_ub n u e s
  | load al w p k ih =>
    cases n with
    | zero => exact Or.inl rfl
    | succ n =>
      simp only [CM.bind, after, step, Runs, run]
      split
      · split
        · rcases ih (bytesAt s p w) n s with h | ⟨r, s1, m, ⟨tr, h1⟩, h2⟩
          · exact Or.inl h
          · exact Or.inr ⟨r, s1, m, ⟨_, by rw [h1]; rfl⟩, h2⟩
        · left; simp only [after_ub]
      · left; simp only [after_ub]
  | store al p bs k ih =>
    cases n with
    | zero => exact Or.inl rfl
    | succ n =>
      simp only [CM.bind, after, step, Runs, run]
      split
      · split
        · split
          · rcases ih n (putBytes s p bs) with h | ⟨r, s1, m, ⟨tr, h1⟩, h2⟩
            · exact Or.inl h
            · exact Or.inr ⟨r, s1, m, ⟨_, by rw [h1]; rfl⟩, h2⟩
          · left; simp only [after_ub]
        · left; simp only [after_ub]
      · left; simp only [after_ub]
  | branch b k ih =>
    cases n with
    | zero => exact Or.inl rfl
    | succ n =>
      rcases ih n s with h | ⟨r, s1, m, ⟨tr, h1⟩, h2⟩
      · exact Or.inl h
      · exact Or.inr ⟨r, s1, m, ⟨_, by rw [run, h1]; rfl⟩, h2⟩
  | getg x k ih =>
    cases n with
    | zero => exact Or.inl rfl
    | succ n =>
      rcases ih (s.getg x) n s with h | ⟨r, s1, m, ⟨tr, h1⟩, h2⟩
      · exact Or.inl h
      · exact Or.inr ⟨r, s1, m, ⟨_, by rw [run, h1]; rfl⟩, h2⟩
  | setg x v k ih =>
    cases n with
    | zero => exact Or.inl rfl
    | succ n =>
      rcases ih n (s.setg x v) with h | ⟨r, s1, m, ⟨tr, h1⟩, h2⟩
      · exact Or.inl h
      · exact Or.inr ⟨r, s1, m, ⟨_, by rw [run, h1]; rfl⟩, h2⟩

/-- If `f` ends normally when started in `s`, then it changes only bytes in `A`, and at all times each byte has its old or its final
value. -/
def Tidy (f : CM α) (e : Env) (s : St) (A : Nat → Nat → Prop) : Prop :=
  ∀ r s', Runs f e s r s' → (∀ b o, ¬ A b o → s'.mem b o = s.mem b o) ∧
    ∀ n b o, (after n f e s).mem b o = s.mem b o ∨ (after n f e s).mem b o = s'.mem b o

theorem Tidy.bind {f : CM α} {g : α → CM β} {e : Env} {s : St} {A B : Nat → Nat → Prop} (h : Tidy f e s A)
    (hg : ∀ a s1, Runs f e s a s1 → Tidy (g a) e s1 B) (hd : ∀ b o, A b o → B b o → False) :
    Tidy (f >>= g) e s fun b o => A b o ∨ B b o := by
  intro r s' hr
  obtain ⟨a, s1, h1, h2⟩ := runs_bind_inv hr
  obtain ⟨f1, f2⟩ := h a s1 h1
  obtain ⟨g1, g2⟩ := hg a s1 h1 r s' h2
  refine ⟨fun b o hb => (g1 b o fun h => hb (Or.inr h)).trans (f1 b o fun h => hb (Or.inl h)), fun n b o => ?_⟩
  -- a byte that the first part changed is not changed by the second
  have key : s1.mem b o = s.mem b o ∨ s1.mem b o = s'.mem b o := by
    by_cases hA : A b o
    · exact Or.inr (g1 b o fun hB => hd b o hA hB).symm
    · exact Or.inl (f1 b o hA)
  rcases after_bind n f g e s with h | ⟨a', s1', m, h3, h⟩
  · rw [h]
    rcases f2 n b o with h | h
    · exact Or.inl h
    · rcases key with k | k
      · exact Or.inl (h.trans k)
      · exact Or.inr (h.trans k)
  · obtain ⟨rfl, rfl⟩ := h1.det h3
    rw [h]
    rcases g2 m b o with h | h
    · rcases key with k | k
      · exact Or.inl (h.trans k)
      · exact Or.inr (h.trans k)
    · exact Or.inr h

theorem Tidy.mono {f : CM α} {e : Env} {s : St} {A B : Nat → Nat → Prop} (h : Tidy f e s A) (hA : ∀ b o, A b o → B b o) : Tidy f e s B :=
  fun r s' hr => ⟨fun b o hb => (h r s' hr).1 b o fun h => hb (hA b o h), (h r s' hr).2⟩

theorem Runs.store_inv {al : Nat} {p : Ptr} {bs : List Byte} {k : CM α} {e : Env} {s s' : St} {r : α}
    (h : Runs (.store al p bs k) e s r s') : (canRead e p bs.length = true ∧ alignedOk e p al = true ∧ canWrite e p bs.length = true) ∧
      Runs k e (putBytes s p bs) r s' := by
  obtain ⟨tr, h⟩ := h
  rw [run] at h
  split at h
  · split at h
    · split at h
      · rename_i h1 h2 h3
        refine ⟨⟨h1, h2, h3⟩, ?_⟩
        cases hk : run k e (putBytes s p bs) with
        | ub u => rw [hk] at h; exact nomatch h
        | ok a s2 tr2 => rw [hk] at h; cases h; exact ⟨tr2, hk⟩
      · exact nomatch h
    · exact nomatch h
  · exact nomatch h

theorem Runs.load_inv {al w : Nat} {p : Ptr} {k : List Byte → CM α} {e : Env} {s s' : St} {r : α}
    (h : Runs (.load al w p k) e s r s') : (canRead e p w = true ∧ alignedOk e p al = true) ∧ Runs (k (bytesAt s p w)) e s r s' := by
  obtain ⟨tr, h⟩ := h
  rw [run] at h
  split at h
  · split at h
    · rename_i h1 h2
      refine ⟨⟨h1, h2⟩, ?_⟩
      cases hk : run (k (bytesAt s p w)) e s with
      | ub u => rw [hk] at h; exact nomatch h
      | ok a s2 tr2 => rw [hk] at h; cases h; exact ⟨tr2, hk⟩
    · exact nomatch h
  · exact nomatch h

theorem Runs.cons_inv {o : Out α} {ev : Ev} {r : α} {s' : St} {tr : List Ev} (h : o.cons ev = .ok r s' tr) : ∃ tr', o = .ok r s' tr' := by
  cases o with
  | ub u => exact nomatch h
  | ok a s t => cases h; exact ⟨t, rfl⟩

theorem Once.tidy {f : CM α} {A : Nat → Nat → Prop} {Q : α → Prop} (h : Once f A Q) (e : Env) (s : St) : Tidy f e s A := by
  induction f generalizing A s with
  | ret a =>
    rintro r s' ⟨tr, hr⟩
    cases hr
    exact ⟨fun _ _ _ => rfl, fun n b o => Or.inl (by rw [after_ret])⟩
  | ub u => rintro r s' ⟨tr, hr⟩; exact nomatch hr
  | load al w p k ih =>
    intro r s' hr
    obtain ⟨⟨c1, c2⟩, hk⟩ := hr.load_inv
    obtain ⟨h1, h2⟩ := ih _ (h (bytesAt s p w) (by simp)) s r s' hk
    refine ⟨h1, fun n b o => ?_⟩
    cases n with
    | zero => exact Or.inl rfl
    | succ n => simp only [after, step, c1, c2, if_true]; exact h2 n b o
  | store al p bs k ih =>
    intro r s' hr
    obtain ⟨⟨c1, c2, c3⟩, hk⟩ := hr.store_inv
    obtain ⟨h1, h2⟩ := ih h.2 (putBytes s p bs) r s' hk
    have key : ∀ b o, (putBytes s p bs).mem b o = s.mem b o ∨ (putBytes s p bs).mem b o = s'.mem b o := by
      intro b o
      by_cases hb : InBuf p bs.length b o
      · exact Or.inr (h1 b o fun hA => hA.2 hb).symm
      · left; rw [putBytes_mem]; exact if_neg hb
    refine ⟨fun b o hb => ?_, fun n b o => ?_⟩
    · rw [h1 b o fun hA => hb hA.1, putBytes_mem]
      exact if_neg fun hp => hb (h.1 b o hp)
    · cases n with
      | zero => exact Or.inl rfl
      | succ n =>
        simp only [after, step, c1, c2, c3, if_true]
        rcases h2 n b o with h | h
        · rw [h]; exact key b o
        · exact Or.inr h
  | branch b k ih =>
    rintro r s' ⟨tr, hr⟩
    obtain ⟨tr', hr⟩ := Runs.cons_inv hr
    obtain ⟨h1, h2⟩ := ih h s r s' ⟨tr', hr⟩
    refine ⟨h1, fun n b o => ?_⟩
    cases n with
    | zero => exact Or.inl rfl
    | succ n => exact h2 n b o
  | getg g k ih =>
    rintro r s' ⟨tr, hr⟩
    obtain ⟨tr', hr⟩ := Runs.cons_inv hr
    obtain ⟨h1, h2⟩ := ih _ (h (s.getg g)) s r s' ⟨tr', hr⟩
    refine ⟨h1, fun n b o => ?_⟩
    cases n with
    | zero => exact Or.inl rfl
    | succ n => exact h2 n b o
  | setg g v k ih =>
    rintro r s' ⟨tr, hr⟩
    obtain ⟨tr', hr⟩ := Runs.cons_inv hr
    obtain ⟨h1, h2⟩ := ih h (s.setg g v) r s' ⟨tr', hr⟩
    have hm : (s.setg g v).mem = s.mem := by cases g <;> rfl
    rw [hm] at h1 h2
    refine ⟨h1, fun n b o => ?_⟩
    cases n with
    | zero => exact Or.inl rfl
    | succ n => exact h2 n b o

/-- A part that does not store, in a known state. -/
theorem Tidy.pre {Q : α → Prop} {f : CM α} {g : α → CM β} {e : Env} {s : St} {B : Nat → Nat → Prop} (h : Once f (fun _ _ => False) Q)
    (hg : ∀ a s1, Runs f e s a s1 → s1.mem = s.mem → Tidy (g a) e s1 B) : Tidy (f >>= g) e s B := by
  have ht := h.tidy e s
  refine (ht.bind (fun a s1 h1 => hg a s1 h1 ?_) fun _ _ h => h.elim).mono fun _ _ h => h.elim False.elim id
  exact funext fun b => funext fun o => (ht a s1 h1).1 b o id

/-- At all times bytes outside `A` are unchanged. -/
theorem Tidy.frame {f : CM α} {e : Env} {s s' : St} {r : α} {A : Nat → Nat → Prop} (h : Tidy f e s A) (hr : Runs f e s r s') (n b o : Nat)
    (hA : ¬ A b o) : (after n f e s).mem b o = s.mem b o := by
  rcases (h r s' hr).2 n b o with h1 | h1
  · exact h1
  · rw [h1]; exact (h r s' hr).1 b o hA

/-- If `f` ends normally, then at all times the bytes in `B` are unchanged or the bytes in `A` have their final values. -/
def Last (f : CM α) (e : Env) (s : St) (A B : Nat → Nat → Prop) : Prop :=
  ∀ r s', Runs f e s r s' → ∀ n, (∀ b o, B b o → (after n f e s).mem b o = s.mem b o) ∨ ∀ b o, A b o → (after n f e s).mem b o = s'.mem b o

theorem Last.pre {f : CM α} {g : α → CM β} {e : Env} {s : St} {C A B : Nat → Nat → Prop} (h : Tidy f e s C)
    (hg : ∀ a s1, Runs f e s a s1 → Last (g a) e s1 A B) (hd : ∀ b o, C b o → B b o → False) : Last (f >>= g) e s A B := by
  intro r s' hr n
  obtain ⟨a, s1, h1, h2⟩ := runs_bind_inv hr
  rcases after_bind n f g e s with h3 | ⟨a', s1', m, h3, h4⟩
  · left
    intro b o hB
    rw [h3]
    exact h.frame h1 n b o fun hC => hd b o hC hB
  · obtain ⟨rfl, rfl⟩ := h1.det h3
    rw [h4]
    rcases hg a s1 h1 r s' h2 m with h5 | h5
    · left
      intro b o hB
      rw [h5 b o hB]
      exact (h a s1 h1).1 b o fun hC => hd b o hC hB
    · exact Or.inr h5

theorem Last.of_tidy {f : CM α} {e : Env} {s : St} {C A B : Nat → Nat → Prop} (h : Tidy f e s C) (hd : ∀ b o, C b o → A b o → False) :
    Last f e s A B := by
  intro r s' hr n
  right
  intro b o hA
  rw [h.frame hr n b o fun hC => hd b o hC hA, (h r s' hr).1 b o fun hC => hd b o hC hA]

/-- When all steps are made, the call is complete. -/
theorem after_end {f : CM α} {e : Env} {s s' : St} {r : α} {tr : List Ev} (h : run f e s = .ok r s' tr) {n : Nat} (hn : tr.length ≤ n) :
    after n f e s = s' := by
  induction f generalizing s tr n with
  | ret a => cases h; exact after_ret ..
  | ub u => exact nomatch h
  | load al w p k ih =>
    rw [run] at h
    split at h
    · split at h
      · rename_i c1 c2
        obtain ⟨t, h2, rfl⟩ := Out.cons_ok h
        obtain ⟨m, rfl⟩ := Nat.exists_eq_add_of_le' (Nat.lt_of_lt_of_le (Nat.succ_pos _) hn)
        simp only [after, step, c1, c2, if_true]
        exact ih _ h2 (by simpa using hn)
      · exact nomatch h
    · exact nomatch h
  | store al p bs k ih =>
    rw [run] at h
    split at h
    · split at h
      · split at h
        · rename_i c1 c2 c3
          obtain ⟨t, h2, rfl⟩ := Out.cons_ok h
          obtain ⟨m, rfl⟩ := Nat.exists_eq_add_of_le' (Nat.lt_of_lt_of_le (Nat.succ_pos _) hn)
          simp only [after, step, c1, c2, c3, if_true]
          exact ih h2 (by simpa using hn)
        · exact nomatch h
      · exact nomatch h
    · exact nomatch h
  | branch b k ih =>
    rw [run] at h
    obtain ⟨t, h2, rfl⟩ := Out.cons_ok h
    obtain ⟨m, rfl⟩ := Nat.exists_eq_add_of_le' (Nat.lt_of_lt_of_le (Nat.succ_pos _) hn)
    exact ih h2 (by simpa using hn)
  | getg g k ih =>
    rw [run] at h
    obtain ⟨t, h2, rfl⟩ := Out.cons_ok h
    obtain ⟨m, rfl⟩ := Nat.exists_eq_add_of_le' (Nat.lt_of_lt_of_le (Nat.succ_pos _) hn)
    exact ih _ h2 (by simpa using hn)
  | setg g v k ih =>
    rw [run] at h
    obtain ⟨t, h2, rfl⟩ := Out.cons_ok h
    obtain ⟨m, rfl⟩ := Nat.exists_eq_add_of_le' (Nat.lt_of_lt_of_le (Nat.succ_pos _) hn)
    exact ih h2 (by simpa using hn)

theorem bytesAt_of_inBuf {s t : St} {p : Ptr} {n : Nat} (h : ∀ b o, InBuf p n b o → s.mem b o = t.mem b o) : bytesAt s p n = bytesAt t p n :=
  List.map_congr_left fun i hi => h _ _ ⟨rfl, Nat.le_add_right .., Nat.add_lt_add_left (List.mem_range.1 hi) _⟩

theorem Disjoint.not_both {p q : Ptr} {n m : Nat} (h : Disjoint p n q m) {b o : Nat} (h1 : InBuf p n b o) (h2 : InBuf q m b o) : False := by
  obtain ⟨a1, a2, a3⟩ := h1
  obtain ⟨b1, b2, b3⟩ := h2
  rcases h with h | h | h | h | h
  · omega
  · omega
  · exact h (a1.symm.trans b1)
  · omega
  · omega

end C
