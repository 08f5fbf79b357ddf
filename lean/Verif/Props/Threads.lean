import Verif.Proof.Pool
import Verif.Props.Concurrency
import Verif.Props.Hash
/-!
# C38: any number of threads; C39: the accesses of `crypto_hash`
-/

namespace Props
open C Model Spec

/-- A call of `crypto_aead_encrypt`, `crypto_aead_decrypt` or `crypto_hash` of some implementation. -/
inductive Job where
  | enc (t : Target) (a : EncArgs)
  | dec (t : Target) (d : DecArgs)
  | hash (t : Target) (f : Ptr → Ptr → Nat → CM Int) (hf : t.hash = some f) (a : HashArgs)

/-- The code that runs. -/
def Job.prog : Job → CM Int
  | .enc t a => t.aead.encrypt a
  | .dec t d => t.aead.decrypt d
  | .hash _ f _ a => f a.out a.inp a.inlen

/-- The call is valid. -/
def Job.Valid (e : Env) : Job → Prop
  | .enc t a => ValidEnc e a ∧ t.limits.Enc e a
  | .dec t d => ValidDec e d ∧ t.limits.Dec e d
  | .hash _ _ _ a => ValidHash e a ∧ AlignedHash e a

/-- The call is an encryption or decryption of an stp variant. -/
def Job.stp : Job → Bool
  | .enc t _ => t.stp
  | .dec t _ => t.stp
  | .hash .. => false

/-- A thread makes some calls one after the other and collects what they return. -/
def jobs : List Job → CM (List Int)
  | [] => pure []
  | x :: l => do
    let r ← x.prog
    let rs ← jobs l
    pure (r :: rs)

theorem Job.noGlob (x : Job) (h : x.stp = false) : NoGlob x.prog := by
  cases x with
  | enc t a => exact t.noGlob_encrypt h a
  | dec t d => exact t.noGlob_decrypt h d
  | hash t f hf a => exact (Target.sim_hash hf _ _ _ (gl := false)).noGlob

theorem Job.runs {x : Job} {e : Env} (h : x.Valid e) (s : St) : ∃ r s', Runs x.prog e s r s' := by
  cases x with
  | enc t a =>
    obtain ⟨s', h, _⟩ := t.encryptOK e s a h.1 h.2
    exact ⟨0, s', h⟩
  | dec t d => exact dec_exists h.1 h.2 s
  | hash t f hf a => exact ⟨_, _, Target.hash_run hf h.2 h.1 s⟩

theorem noGlob_jobs (l : List Job) (h : ∀ x ∈ l, x.stp = false) : NoGlob (jobs l) := by
  induction l with
  | nil => exact .ret
  | cons x l ih =>
    exact (x.noGlob (h x (List.mem_cons_self ..))).bind fun _ => (ih fun y hy => h y (List.mem_cons_of_mem _ hy)).bind fun _ => .ret

theorem runs_jobs {l : List Job} {e : Env} (h : ∀ x ∈ l, x.Valid e) (s : St) : ∃ r s', Runs (jobs l) e s r s' := by
  induction l generalizing s with
  | nil => exact ⟨[], s, runs_pure ..⟩
  | cons x l ih =>
    obtain ⟨r, s1, h1⟩ := Job.runs (h x (List.mem_cons_self ..)) s
    obtain ⟨rs, s2, h2⟩ := ih (fun y hy => h y (List.mem_cons_of_mem _ hy)) s1
    exact ⟨r :: rs, s2, runs_bind h1 (runs_bind h2 (runs_pure ..))⟩

theorem owner_unique {ι : Type} (js : ι → List Job)
    (hO : ∀ i j, i ≠ j → ∀ x ∈ js i, x.stp = true → ∀ y ∈ js j, y.stp = false) (i j : ι)
    (hi : (js i).any Job.stp = true) (hj : (js j).any Job.stp = true) : i = j := by
  obtain ⟨x, hx, h1⟩ := List.any_eq_true.1 hi
  obtain ⟨y, hy, h2⟩ := List.any_eq_true.1 hj
  refine Classical.byContradiction fun hij => ?_
  rw [hO i j hij x hx h1 y hy] at h2
  exact nomatch h2

theorem jobs_ahead {ι : Type} (es : ι → Env) (js : ι → List Job) (hV : ∀ i, ∀ x ∈ js i, x.Valid (es i)) (s : St) :
    ∃ a s1 n, (∀ i, Runs (jobs (js i)) (es i) s (a i) (s1 i)) ∧
      PoolAhead es (fun i => (js i).any Job.stp) a s1 n ⟨fun i => jobs (js i), s⟩ := by
  have h : ∀ i, ∃ x : List Int × St × List Ev, run (jobs (js i)) (es i) s = .ok x.1 x.2.1 x.2.2 := fun i => by
    obtain ⟨r, s', tr, h⟩ := runs_jobs (hV i) s
    exact ⟨(r, s', tr), h⟩
  obtain ⟨f, hf⟩ := Classical.axiomOfChoice h
  refine ⟨fun i => (f i).1, fun i => (f i).2.1, fun i => (f i).2.2.length, fun i => ⟨_, hf i⟩, fun i => ⟨fun ho => ?_, s, _, hf i, fun _ _ _ => rfl, fun _ => ⟨rfl, rfl⟩, rfl⟩⟩
  exact noGlob_jobs _ fun x hx => by
    have := List.any_eq_false.1 ho x hx
    simpa using this

/-- **C38** Any number of threads, each making any finite sequence of valid calls of any implementations.  No thread may write
what another one uses, and at most one thread calls stp variants.  Then for each thread there are the results `a` and memory
`s1` of its calls made alone and a number of steps `n` such that under every schedule of all threads: it does not run into
undefined behaviour; if it has returned, it has returned `a` and left in the memory it uses what it leaves there alone; and it
has returned if it has had `n` turns. -/
theorem C38_threads {ι : Type} [DecidableEq ι] (es : ι → Env) (js : ι → List Job)
    (hS : ∀ i j, i ≠ j → Separate (es i) (es j)) (hO : ∀ i j, i ≠ j → ∀ x ∈ js i, x.stp = true → ∀ y ∈ js j, y.stp = false)
    (hV : ∀ i, ∀ x ∈ js i, x.Valid (es i)) (s : St) (i : ι) :
    ∃ a s1 n, Runs (jobs (js i)) (es i) s a s1 ∧ ∀ l : List ι,
      let T := schedule es l ⟨fun i => jobs (js i), s⟩
      (∀ u, T.t i ≠ .ub u) ∧
      (∀ r, T.t i = .ret r → r = a ∧ ∀ blk o, (es i).rd blk o = true → T.s.mem blk o = s1.mem blk o) ∧
      (n ≤ l.count i → T.t i = .ret a) := by
  obtain ⟨a, s1, n, hr, hA⟩ := jobs_ahead es js hV s
  refine ⟨a i, s1 i, n i, hr i, fun l => ?_⟩
  have B := schedule_ahead hS (owner_unique js hO) l hA i
  refine ⟨fun u => B.not_ub u, fun r h => ?_, fun h => ?_⟩
  · rw [h] at B
    exact ⟨B.ret.1, fun blk o ho => (B.ret.2 blk o ho).symm⟩
  · simp only [Nat.sub_eq_zero_of_le h] at B
    exact B.done

/-- **C38** Under the same conditions no schedule leads to a data race, and memory that no thread may write is unchanged. -/
theorem C38_no_race {ι : Type} [DecidableEq ι] (es : ι → Env) (js : ι → List Job)
    (hS : ∀ i j, i ≠ j → Separate (es i) (es j)) (hO : ∀ i j, i ≠ j → ∀ x ∈ js i, x.stp = true → ∀ y ∈ js j, y.stp = false)
    (hV : ∀ i, ∀ x ∈ js i, x.Valid (es i)) (s : St) (l : List ι) :
    let T := schedule es l ⟨fun i => jobs (js i), s⟩
    ¬ DataRace T ∧ ∀ blk o, (∀ i, (es i).wr blk o = false) → T.s.mem blk o = s.mem blk o := by
  obtain ⟨a, s1, n, hr, hA⟩ := jobs_ahead es js hV s
  exact ⟨(schedule_ahead hS (owner_unique js hO) l hA).no_race hS (owner_unique js hO), fun blk o h => schedule_frame l _ blk o h⟩

/-- The memory of a third thread, which hashes. -/
def hashEnv : Env := ⟨fun b o => decide (b = 20 ∧ o < 36), fun b o => decide (b = 20 ∧ o < 36), fun _ => 0, false⟩

theorem size_large {b : Nat} (h : 10 ≤ b) : Sample.size b = 0 := by
  unfold Sample.size
  split <;> first | omega | rfl

theorem hashEnv_separate : Separate Sample.env hashEnv ∧ Separate otherEnv hashEnv := by
  refine ⟨⟨fun b o h => ?_, fun b o h => ?_⟩, fun b o h => ?_, fun b o h => ?_⟩
  · simp only [Sample.env, hashEnv, Bool.and_eq_true, decide_eq_true_eq, decide_eq_false_iff_not] at h ⊢
    rintro ⟨rfl, _⟩
    rw [size_large (by decide)] at h
    omega
  · simp only [Sample.env, hashEnv, decide_eq_true_eq] at h ⊢
    rw [size_large (by omega)]
    simp
  · simp only [otherEnv, hashEnv, decide_eq_true_eq, decide_eq_false_iff_not] at h ⊢
    omega
  · simp only [otherEnv, hashEnv, decide_eq_true_eq] at h ⊢
    obtain ⟨rfl, _⟩ := h
    simp

/-- Non-vacuity: three threads.  The first one encrypts with an stp variant and then decrypts with it, the second one decrypts with
another implementation, using the same key, and the third one hashes twice. -/
example : ∃ (es : Fin 3 → Env) (js : Fin 3 → List Job),
    (∀ i j, i ≠ j → Separate (es i) (es j)) ∧ (∀ i j, i ≠ j → ∀ x ∈ js i, x.stp = true → ∀ y ∈ js j, y.stp = false) ∧
    (∀ i, ∀ x ∈ js i, x.Valid (es i)) ∧ (∀ i, js i ≠ []) := by
  have hV : ValidHash hashEnv ⟨⟨20, 4⟩, ⟨20, 0⟩, 21⟩ :=
    { inp := fun i hi => by
        have hi : i < 21 := hi
        exact decide_eq_true ⟨rfl, show 0 + i < 36 by omega⟩
      out := fun i hi => by
        have h : 4 + i < 36 := by omega
        exact ⟨decide_eq_true ⟨rfl, h⟩, decide_eq_true ⟨rfl, h⟩⟩
      inlen_lt := by decide }
  let h : Job := .hash .a128aOpt64 _ rfl ⟨⟨20, 4⟩, ⟨20, 0⟩, 21⟩
  have H : h.Valid hashEnv := ⟨hV, .tolerant rfl .., .tolerant rfl ..⟩
  let es : Fin 3 → Env := fun | 0 => Sample.env | 1 => otherEnv | 2 => hashEnv
  let js : Fin 3 → List Job := fun
    | 0 => [.enc .a128aBi32Stp Sample.enc, .dec .a128aBi32Stp Sample.dec]
    | 1 => [.dec .k128Opt64 otherDec]
    | 2 => [h, h]
  have sw : ∀ {a b : Env}, Separate a b → Separate b a := fun h => ⟨h.right, h.left⟩
  refine ⟨es, js, ?_, ?_, ?_, ?_⟩
  · intro i j hij
    match i, j, hij with
    | 0, 0, h => exact absurd rfl h
    | 0, 1, _ => exact separate
    | 0, 2, _ => exact hashEnv_separate.1
    | 1, 0, _ => exact sw separate
    | 1, 1, h => exact absurd rfl h
    | 1, 2, _ => exact hashEnv_separate.2
    | 2, 0, _ => exact sw hashEnv_separate.1
    | 2, 1, _ => exact sw hashEnv_separate.2
    | 2, 2, h => exact absurd rfl h
  · have k1 : ∀ y ∈ js 1, y.stp = false := fun y hy => by rw [List.mem_singleton.1 hy]; rfl
    have k2 : ∀ y ∈ js 2, y.stp = false := fun y hy => by
      rcases List.mem_cons.1 hy with rfl | hy
      · rfl
      · rw [List.mem_singleton.1 hy]; rfl
    intro i j hij x hx hs
    match i, j, hij with
    | 0, 0, h => exact absurd rfl h
    | 0, 1, _ => exact k1
    | 0, 2, _ => exact k2
    | 1, 2, _ => exact k2
    | 2, 1, _ => exact k1
    | 1, 1, h => exact absurd rfl h
    | 2, 2, h => exact absurd rfl h
    | 1, 0, _ => rw [k1 x hx] at hs; exact nomatch hs
    | 2, 0, _ => rw [k2 x hx] at hs; exact nomatch hs
  · intro i x hx
    match i with
    | 0 =>
      rcases List.mem_cons.1 hx with rfl | hx
      · exact ⟨Sample.validEnc, Sample.limitsEnc _⟩
      · rw [List.mem_singleton.1 hx]; exact ⟨Sample.validDec, Sample.limitsDec _⟩
    | 1 => rw [List.mem_singleton.1 hx]; exact ⟨otherDec_valid, otherLimits _⟩
    | 2 =>
      rcases List.mem_cons.1 hx with rfl | hx
      · exact H
      · rw [List.mem_singleton.1 hx]; exact H
  · intro i
    match i with
    | 0 => exact List.cons_ne_nil _ _
    | 1 => exact List.cons_ne_nil _ _
    | 2 => exact List.cons_ne_nil _ _

/-- **C39** The trace of `crypto_hash` (addresses and widths of all accesses, all branches) and whether it is defined do not
depend on the contents of memory, in particular not on the message. -/
theorem C39_hash_trace (t : Target) (f : Ptr → Ptr → Nat → CM Int) (hf : t.hash = some f) (e : Env) (out inp : Ptr) (inlen : Nat)
    (s1 s2 : St) : (IsUB (f out inp inlen) e s1 ∧ IsUB (f out inp inlen) e s2) ∨
    ∃ r s1' s2' tr, run (f out inp inlen) e s1 = .ok r s1' tr ∧ run (f out inp inlen) e s2 = .ok r s2' tr := by
  have h := (Target.sim_hash hf out inp inlen (gl := false)).alike e s1 s2
  cases h1 : run (f out inp inlen) e s1 <;> cases h2 : run (f out inp inlen) e s2 <;> rw [h1, h2] at h
  · obtain ⟨rfl, rfl, _⟩ := h
    exact .inr ⟨_, _, _, _, rfl, rfl⟩
  · exact h.elim
  · exact h.elim
  · exact .inl ⟨⟨_, h1⟩, _, h2⟩

/-- Non-vacuity: valid calls are in the second case. -/
example : ∃ f, Target.a128aOpt8.hash = some f ∧ ∀ s1 s2, ∃ r s1' s2' tr,
    run (f sampleHash.out sampleHash.inp sampleHash.inlen) sampleHashEnv s1 = .ok r s1' tr ∧
    run (f sampleHash.out sampleHash.inp sampleHash.inlen) sampleHashEnv s2 = .ok r s2' tr := by
  refine ⟨_, rfl, fun s1 s2 => (C39_hash_trace .a128aOpt8 _ rfl _ _ _ _ s1 s2).resolve_left fun h => ?_⟩
  obtain ⟨tr, h1⟩ := Target.hash_run (t := .a128aOpt8) rfl sampleHash_aligned sampleHash_valid s1
  obtain ⟨u, h2⟩ := h.1
  rw [h1] at h2
  exact nomatch h2

end Props
