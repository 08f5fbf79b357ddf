import Verif.C.Threads
import Verif.Proof.Shape
/-!
# Threads that do not use global variables do not disturb each other
-/

namespace C

/-- No access to global variables. -/
inductive NoGlob {α : Type} : CM α → Prop where
  | ret {a} : NoGlob (.ret a)
  | ub {u} : NoGlob (.ub u)
  | load {al w p k} : (∀ bs : List Byte, bs.length = w → NoGlob (k bs)) → NoGlob (.load al w p k)
  | store {al p bs k} : NoGlob k → NoGlob (.store al p bs k)
  | branch {b k} : NoGlob k → NoGlob (.branch b k)

theorem NoGlob.bind {f : CM α} {g : α → CM β} (h : NoGlob f) (h' : ∀ a, NoGlob (g a)) : NoGlob (f >>= g) := by
  show NoGlob (CM.bind f g)
  induction h with
  | ret => exact h' _
  | ub => exact .ub
  | load _ ih => exact .load ih
  | store _ ih => exact .store ih
  | branch _ ih => exact .branch ih

theorem Sim.noGlob {R : α → β → Prop} {f : CM α} {g : CM β} {st : Bool} (h : Sim st false R f g) : NoGlob f := by
  induction h with
  | ret => exact .ret
  | ub => exact .ub
  | load _ ih => exact .load fun bs h => ih bs bs h h
  | store _ _ _ ih => exact .store ih
  | branch _ ih => exact .branch ih
  | getg h => exact nomatch h
  | setg h => exact nomatch h

theorem noGlob_forN {σ : Type} {f : Nat → σ → CM σ} (h : ∀ i x, NoGlob (f i x)) (n i : Nat) (x : σ) : NoGlob (forN n i f x) := by
  induction n generalizing i x with
  | zero => exact .branch .ret
  | succ n ih => exact NoGlob.branch ((h i x).bind fun y => ih (i + 1) y)

theorem noGlob_loadLen (p : Ptr) : NoGlob (loadLen p) := .load fun _ _ => .ret
theorem noGlob_storeLen (p : Ptr) (n : Nat) : NoGlob (storeLen p n) := .store .ret
theorem noGlob_load8 (p : Ptr) : NoGlob (load8 p) := .load fun _ _ => .ret
theorem noGlob_if {b : Bool} {f g : CM α} (h : NoGlob f) (h' : NoGlob g) :
    NoGlob (branch b >>= fun b => if b then f else g) := by
  cases b
  · exact .branch h'
  · exact .branch h

/-- The two memories agree where the thread may read. -/
def Agree (e : Env) (s t : St) : Prop := ∀ b o, e.rd b o = true → s.mem b o = t.mem b o

theorem Agree.bytesAt {e : Env} {s t : St} (h : Agree e s t) {p : Ptr} {w : Nat} (hc : canRead e p w = true) :
    bytesAt s p w = bytesAt t p w := by
  unfold C.bytesAt
  apply List.map_congr_left
  intro i hi
  rw [canRead, List.all_eq_true] at hc
  exact h _ _ (hc i hi)

theorem Agree.putBytes {e : Env} {s t : St} (h : Agree e s t) (p : Ptr) (bs : List Byte) :
    Agree e (putBytes s p bs) (putBytes t p bs) := by
  intro b o hr
  show (if _ then _ else _) = (if _ then _ else _)
  split
  · rfl
  · exact h b o hr

/-- A store by the other thread is not noticed. -/
theorem Agree.other {e : Env} {s t : St} (h : Agree e s t) {p : Ptr} {bs : List Byte}
    (hn : ∀ i, i < bs.length → e.rd p.blk (p.off + i) = false) : Agree e s (C.putBytes t p bs) := by
  intro b o hr
  show _ = (if _ then _ else _)
  split
  · rename_i hc
    obtain ⟨rfl, h1, h2⟩ := hc
    have := hn (o - p.off) (by omega)
    rw [show p.off + (o - p.off) = o by omega, hr] at this
    exact nomatch this
  · exact h b o hr

/-- The thread at `f`, in the shared state `s`, will end like the run that returns `a` in state `s1`, after `n` more steps. -/
def Ahead (e : Env) (a : α) (s1 : St) (n : Nat) (f : CM α) (s : St) : Prop :=
  NoGlob f ∧ ∃ c tr, run f e c = .ok a s1 tr ∧ Agree e c s ∧ tr.length = n

theorem Ahead.step {e : Env} {a : α} {s1 : St} {n : Nat} {f : CM α} {s : St} (h : Ahead e a s1 n f s) :
    Ahead e a s1 (n - 1) (step f e s).1 (step f e s).2 := by
  obtain ⟨hg, c, tr, hr, hA, hn⟩ := h
  cases hg with
  | ret =>
    injection hr with h1 h2 h3
    subst h1; subst h2; subst h3
    exact ⟨.ret, c, [], rfl, hA, by rw [← hn]; rfl⟩
  | ub => exact nomatch hr
  | @load al w p k hk =>
    rw [run] at hr
    rw [C.step]
    by_cases h1 : canRead e p w = true
    · by_cases h2 : alignedOk e p al = true
      · rw [if_pos h1, if_pos h2] at hr ⊢
        obtain ⟨tr', ho, rfl⟩ := Out.cons_ok hr
        rw [hA.bytesAt h1] at ho
        exact ⟨hk _ (by simp [bytesAt]), c, tr', ho, hA, by rw [← hn]; rfl⟩
      · rw [if_pos h1, if_neg h2] at hr; exact nomatch hr
    · rw [if_neg h1] at hr; exact nomatch hr
  | @store al p bs k hk =>
    rw [run] at hr
    rw [C.step]
    by_cases h1 : canRead e p bs.length = true
    · by_cases h2 : alignedOk e p al = true
      · by_cases h3 : canWrite e p bs.length = true
        · rw [if_pos h1, if_pos h2, if_pos h3] at hr ⊢
          obtain ⟨tr', ho, rfl⟩ := Out.cons_ok hr
          exact ⟨hk, _, tr', ho, hA.putBytes p bs, by rw [← hn]; rfl⟩
        · rw [if_pos h1, if_pos h2, if_neg h3] at hr; exact nomatch hr
      · rw [if_pos h1, if_neg h2] at hr; exact nomatch hr
    · rw [if_neg h1] at hr; exact nomatch hr
  | @branch b k hk =>
    rw [run] at hr
    obtain ⟨tr', ho, rfl⟩ := Out.cons_ok hr
    exact ⟨hk, c, tr', ho, hA, by rw [← hn]; rfl⟩

/-- A step changes only bytes the thread may write. -/
theorem step_frame (f : CM α) (e : Env) (s : St) (b o : Nat) (h : e.wr b o = false) : (step f e s).2.mem b o = s.mem b o := by
  cases f with
  | ret | ub | branch | getg => rfl
  | setg g v k => cases g <;> rfl
  | load al w p k =>
    simp only [step]
    split
    · split <;> rfl
    · rfl
  | store al p bs k =>
    simp only [step]
    split
    · split
      · split
        · rename_i hc
          show (if _ then _ else _) = _
          split
          · rename_i hb
            obtain ⟨rfl, h1, h2⟩ := hb
            rw [canWrite, List.all_eq_true] at hc
            have := hc (o - p.off) (List.mem_range.2 (by omega))
            rw [show p.off + (o - p.off) = o by omega, h] at this
            exact nomatch this
          · rfl
        · rfl
      · rfl
    · rfl

/-- A step of the other thread is not noticed. -/
theorem Ahead.other {e e' : Env} {a : α} {s1 : St} {n : Nat} {f : CM α} {s : St} (h : Ahead e a s1 n f s)
    (hS : ∀ b o, e'.wr b o = true → e.rd b o = false) (g : CM β) : Ahead e a s1 n f (C.step g e' s).2 := by
  obtain ⟨hg, c, tr, hr, hA, hn⟩ := h
  refine ⟨hg, c, tr, hr, ?_, hn⟩
  intro b o hb
  rw [hA b o hb]
  by_cases hw : e'.wr b o = true
  · rw [hS b o hw] at hb; exact nomatch hb
  · rw [step_frame g e' s b o (by simpa using hw)]

theorem interleave_ahead {e1 e2 : Env} (hS : Separate e1 e2) {a : α} {b : β} {s1 s2 : St} (l : List Bool) {n1 n2 : Nat}
    {T : Threads α β} (h1 : Ahead e1 a s1 n1 T.t1 T.s) (h2 : Ahead e2 b s2 n2 T.t2 T.s) :
    Ahead e1 a s1 (n1 - l.count true) (interleave e1 e2 l T).t1 (interleave e1 e2 l T).s ∧
    Ahead e2 b s2 (n2 - l.count false) (interleave e1 e2 l T).t2 (interleave e1 e2 l T).s := by
  induction l generalizing T n1 n2 with
  | nil => exact ⟨h1, h2⟩
  | cons c l ih =>
    cases c
    · have := ih (T := { T with t2 := (step T.t2 e2 T.s).1, s := (step T.t2 e2 T.s).2 }) (h1.other hS.right T.t2) h2.step
      rw [show n2 - (false :: l).count false = n2 - 1 - l.count false by simp; omega,
        show (false :: l).count true = l.count true by simp]
      exact this
    · have := ih (T := { T with t1 := (step T.t1 e1 T.s).1, s := (step T.t1 e1 T.s).2 }) h1.step (h2.other hS.left T.t1)
      rw [show n1 - (true :: l).count true = n1 - 1 - l.count true by simp; omega,
        show (true :: l).count false = l.count false by simp]
      exact this

theorem interleave_frame {e1 e2 : Env} (l : List Bool) (T : Threads α β) (b o : Nat) (h1 : e1.wr b o = false)
    (h2 : e2.wr b o = false) : (interleave e1 e2 l T).s.mem b o = T.s.mem b o := by
  induction l generalizing T with
  | nil => rfl
  | cons c l ih =>
    cases c
    · rw [interleave, ih]; exact step_frame _ _ _ _ _ h2
    · rw [interleave, ih]; exact step_frame _ _ _ _ _ h1

/-- If it is not undefined and there is nothing left to do, the thread has returned. -/
theorem Ahead.done {e : Env} {a : α} {s1 : St} {f : CM α} {s : St} (h : Ahead e a s1 0 f s) : f = .ret a ∧ Agree e s1 s := by
  obtain ⟨hg, c, tr, hr, hA, hn⟩ := h
  have hn : tr = [] := List.length_eq_zero_iff.1 hn
  subst hn
  cases f with
  | ret x =>
    injection hr with h1 h2 h3
    subst h1; subst h2
    exact ⟨rfl, hA⟩
  | ub u => exact nomatch hr
  | branch b k => rw [run] at hr; obtain ⟨_, _, h⟩ := Out.cons_ok hr; exact nomatch h
  | getg | setg => exact nomatch hg
  | load al w p k =>
    rw [run] at hr
    split at hr
    · split at hr
      · obtain ⟨_, _, h⟩ := Out.cons_ok hr; exact nomatch h
      · exact nomatch hr
    · exact nomatch hr
  | store al p bs k =>
    rw [run] at hr
    split at hr
    · split at hr
      · split at hr
        · obtain ⟨_, _, h⟩ := Out.cons_ok hr; exact nomatch h
        · exact nomatch hr
      · exact nomatch hr
    · exact nomatch hr

theorem Ahead.not_ub {e : Env} {a : α} {s1 : St} {n : Nat} {f : CM α} {s : St} (h : Ahead e a s1 n f s) (u : UB) : f ≠ .ub u := by
  rintro rfl
  obtain ⟨_, c, tr, hr, _⟩ := h
  exact nomatch hr

theorem Ahead.ret {e : Env} {a x : α} {s1 : St} {n : Nat} {s : St} (h : Ahead e a s1 n (.ret x) s) : x = a ∧ Agree e s1 s := by
  obtain ⟨_, c, tr, hr, hA, _⟩ := h
  injection hr with h1 h2 h3
  subst h1; subst h2
  exact ⟨rfl, hA⟩

end C

namespace Model
open C

theorem noGlob_decrypt {I : Impl} (P : Shape false I) (m mlen nsec c : Ptr) (clen : Nat) (ad : Ptr) (adlen : Nat) (npub k : Ptr) :
    NoGlob (decrypt I m mlen nsec c clen ad adlen npub k) := by
  unfold decrypt
  refine (noGlob_storeLen _ _).bind fun _ => (noGlob_loadLen _).bind fun _ => ?_
  refine (P.mac _ _ _ _ _ _).noGlob.bind fun _ => ?_
  refine (noGlob_forN (fun i x => ?_) _ _ _).bind fun _ => ?_
  · exact (noGlob_loadLen _).bind fun _ => (noGlob_load8 _).bind fun _ => .ret
  refine noGlob_if ?_ .ret
  refine (noGlob_loadLen _).bind fun _ => ?_
  refine NoGlob.bind (noGlob_if ?_ .ret) fun _ => .ret
  exact (noGlob_loadLen _).bind fun _ => (P.enc _ _ _ _ _).noGlob

theorem Target.noGlob_encrypt {t : Target} (h : t.stp = false) (a : EncArgs) : NoGlob (t.aead.encrypt a) := by
  have := t.shape.encrypt a
  rw [h] at this
  exact this.noGlob

theorem AeadShape.noGlob_decrypt {A : Aead} (h : AeadShape false A) (a : DecArgs) : NoGlob (A.decrypt a) := by
  cases h with
  | common P => exact Model.noGlob_decrypt P _ _ a.nsec _ _ _ _ _ _
  | fused => exact Model.noGlob_decrypt (I := A128.Avx.impl _) (A128.Opt64.shape _) _ _ a.nsec _ _ _ _ _ _

theorem Target.noGlob_decrypt {t : Target} (h : t.stp = false) (a : DecArgs) : NoGlob (t.aead.decrypt a) := by
  have := t.shape
  rw [h] at this
  exact this.noGlob_decrypt a

end Model
