import Verif.Props.Hash
import Verif.Proof.EffectiveType
import Verif.Props.Limits
/-!
# Effective types (C50)
-/

namespace Props
open C Model Spec

/-- The implementations that read words of the caller's buffers through `lane_t`, a union that has an array of `uint8_t` as
member: the ones of ISAP-A-128a in portable C or for ARM.  (Not all words: `isap_enc` reads full blocks of the message through
`uint64_t *`, in the statement that stores the ciphertext.  The models do not tell these reads apart, and count them as permitted.) -/
def readsByUnion : Target → Bool
  | .a128aOpt64 | .a128aOpt32 | .a128aOpt32Compact | .a128aOpt32Tiny | .a128aOpt32Stp | .a128aOpt8 | .a128aOpt8Tiny | .a128aBi8
  | .a128aBi32 | .a128aBi32Compact | .a128aBi32Stp | .a128aBi32Armv6 | .a128aBi32Armv6m | .a128aBi32Armv6mCompact
  | .a128aBi32Armv6mStp | .a128aBi32Armv7m => true
  | _ => false

/-- **C50**, the property of one implementation: the accesses in every valid encryption are permitted for objects declared as
arrays of characters. -/
def CharAccess (t : Target) : Prop :=
  ∀ (e : Env) (s : St) (a : EncArgs), ValidEnc e a → a.adlen < t.limits.maxLen → a.mlen < t.limits.maxLen →
    Readable e a.ad (t.limits.ext a.adlen) → ∀ x ∈ accesses (t.aead.encrypt a) s, x.al = 1 ∨ readsByUnion t = true ∧ x.write = false

/-- **C50** The reference implementations (and the generic ones in isapxv20) access the caller's buffers as characters: encryption, ... -/
theorem C50_encrypt_partial (t : Target) (ht : byteWise t = true) (e : Env) (s : St) (a : EncArgs) (V : ValidEnc e a) :
    ∀ x ∈ accesses (t.aead.encrypt a) s, x.al = 1 := by
  intro x hx
  refine Decidable.byContradiction fun hal => ?_
  obtain ⟨base, hb⟩ := words_fail (t.aead.encrypt a) e s ⟨x, hx, hal⟩
  obtain ⟨s', h, _⟩ := C28_encrypt_partial t ht { e with base := base, strict := true } s a
    ⟨V.1, V.2, V.3, V.4, V.5, V.6, V.7, V.8, V.9, V.10, V.11, V.12, V.13, V.14, V.15, V.16, V.17⟩
  exact hb 0 s' h

/-- ... and decryption. -/
theorem C50_decrypt_partial (t : Target) (ht : byteWise t = true) (e : Env) (s : St) (d : DecArgs) (V : ValidDec e d) :
    ∀ x ∈ accesses (t.aead.decrypt d) s, x.al = 1 := by
  intro x hx
  refine Decidable.byContradiction fun hal => ?_
  obtain ⟨base, hb⟩ := words_fail (t.aead.decrypt d) e s ⟨x, hx, hal⟩
  obtain ⟨r, s', h, _⟩ := C28_decrypt_partial t ht { e with base := base, strict := true } s d
    ⟨⟨V.k, V.npub, V.ad, V.c, V.mlen, V.adlen_lt, V.clen_lt, V.clen_ge, V.mlen_c, V.mlen_ad, V.mlen_npub, V.mlen_k⟩, V.m, V.m_c, V.mlen_m⟩
  exact hb r s' h

/-- The store of the first word of the ciphertext. -/
theorem isapEnc_word {D : Opt.Prims} {k npub m c : Ptr} {mlen : Nat} (hm : 8 ≤ mlen) {e : Env} {s s' : St} {r : Unit}
    (h : Runs (Opt.isapEnc D k npub m mlen c) e s r s') : (⟨true, 8, c, 8⟩ : Access) ∈ accesses (Opt.isapEnc D k npub m mlen c) s := by
  unfold Opt.isapEnc at h ⊢
  obtain ⟨_, _, h1, h⟩ := runs_bind_inv h
  refine access_right h1 ?_
  obtain ⟨_, _, h1, h⟩ := runs_bind_inv h
  refine access_right h1 ?_
  obtain ⟨_, _, h1, h⟩ := runs_bind_inv h
  refine access_right h1 ?_
  obtain ⟨_, _, h1, h⟩ := runs_bind_inv h
  refine access_left h1 ?_
  unfold whileGe at h1 ⊢
  rw [if_pos hm] at h1 ⊢
  obtain ⟨_, _, h2, h1⟩ := runs_bind_inv h1
  refine access_right h2 ?_
  obtain ⟨_, _, h2, h1⟩ := runs_bind_inv h1
  refine access_left h2 ?_
  obtain ⟨_, _, h3, h2⟩ := runs_bind_inv h2
  refine access_right h3 ?_
  obtain ⟨_, _, h3, h2⟩ := runs_bind_inv h2
  refine access_right h3 ?_
  obtain ⟨_, _, h3, h2⟩ := runs_bind_inv h2
  exact access_left h3 (List.mem_cons_self ..)

theorem encrypt_word {I : Impl} {D : Opt.Prims} (hI : I.enc = Opt.isapEnc D) {a : EncArgs} (hm : 8 ≤ a.mlen) {e : Env} {s s' : St}
    {r : Int} (h : Runs (I.aead.encrypt a) e s r s') : (⟨true, 8, a.c, 8⟩ : Access) ∈ accesses (I.aead.encrypt a) s := by
  have h : Runs (Model.encrypt I a.c a.clen a.m a.mlen a.ad a.adlen a.nsec a.npub a.k) e s r s' := h
  show _ ∈ accesses (Model.encrypt I a.c a.clen a.m a.mlen a.ad a.adlen a.nsec a.npub a.k) s
  unfold Model.encrypt at h ⊢
  obtain ⟨_, _, h1, h⟩ := runs_bind_inv h
  refine access_right h1 ?_
  obtain ⟨_, _, h1, h⟩ := runs_bind_inv h
  refine access_left h1 ?_
  unfold ifThen at h1 ⊢
  rw [show decide (a.mlen > 0) = true from decide_eq_true (by omega), hI] at h1 ⊢
  obtain ⟨b, _, h2, h1⟩ := runs_bind_inv h1
  obtain ⟨tr, h2'⟩ := h2
  have hb : b = true := by
    simp only [branch, run, Out.cons, Out.ok.injEq] at h2'
    exact h2'.1.symm
  subst hb
  exact access_right ⟨tr, h2'⟩ (isapEnc_word hm h1)

/-- The implementations that read through the union still store the ciphertext through a pointer to `uint64_t`: every encryption of
at least 8 bytes that ends normally does so. -/
theorem C50_union_writes (t : Target) (ht : readsByUnion t = true) (e : Env) (s s' : St) (a : EncArgs) (r : Int) (hm : 8 ≤ a.mlen)
    (h : Runs (t.aead.encrypt a) e s r s') : (⟨true, 8, a.c, 8⟩ : Access) ∈ accesses (t.aead.encrypt a) s := by
  cases t
  case a128aOpt64 => exact encrypt_word (I := Opt.impl _) rfl hm h
  case a128aOpt32 => exact encrypt_word (I := Opt.impl _) rfl hm h
  case a128aOpt32Compact => exact encrypt_word (I := Opt.impl _) rfl hm h
  case a128aOpt32Tiny => exact encrypt_word (I := Opt.impl _) rfl hm h
  case a128aOpt32Stp => exact encrypt_word (I := Opt.Stp.impl Opt.Opt32.primsStp) rfl hm h
  case a128aOpt8 => exact encrypt_word (I := Opt.impl _) rfl hm h
  case a128aOpt8Tiny => exact encrypt_word (I := Opt.impl _) rfl hm h
  case a128aBi8 => exact encrypt_word (I := Opt.impl _) rfl hm h
  case a128aBi32 => exact encrypt_word (I := Opt.impl _) rfl hm h
  case a128aBi32Compact => exact encrypt_word (I := Opt.impl _) rfl hm h
  case a128aBi32Stp => exact encrypt_word (I := Opt.Stp.impl Opt.Bi32.primsStp) rfl hm h
  case a128aBi32Armv6 => exact encrypt_word (I := Opt.impl _) rfl hm h
  case a128aBi32Armv6m => exact encrypt_word (I := Opt.impl _) rfl hm h
  case a128aBi32Armv6mCompact => exact encrypt_word (I := Opt.impl _) rfl hm h
  case a128aBi32Armv6mStp => exact encrypt_word (I := Opt.Stp.impl Opt.Armv6m.primsStp) rfl hm h
  case a128aBi32Armv7m => exact encrypt_word (I := Opt.impl _) rfl hm h
  all_goals exact Bool.noConfusion ht

/-- A call with objects of unlimited size: a message of 8 bytes, no associated data. -/
def wideEnv : Env := ⟨fun _ _ => true, fun _ _ => true, fun _ => 0, false⟩
def wideEnc : EncArgs := { Sample.enc with mlen := 8, adlen := 0 }

theorem wide_valid : ValidEnc wideEnv wideEnc where
  k := fun _ _ => rfl
  npub := fun _ _ => rfl
  ad := fun _ _ => rfl
  m := fun _ _ => rfl
  c := fun _ _ => ⟨rfl, rfl⟩
  clen := fun _ _ => ⟨rfl, rfl⟩
  adlen_lt := by decide
  mlen_lt := by decide
  c_m := by decide
  c_ad := by decide
  c_npub := by decide
  c_k := by decide
  clen_c := by decide
  clen_m := by decide
  clen_ad := by decide
  clen_npub := by decide
  clen_k := by decide

/-- **C50 is false** of every other implementation: a valid call accesses the caller's memory through a pointer to a wider integer
type. -/
theorem C50_false (t : Target) (ht : byteWise t = false) : ¬ CharAccess t := by
  intro h
  by_cases hu : readsByUnion t = true
  · have h20 := (Sample.limits t).1
    have L : t.limits.Enc wideEnv wideEnc := Limits.enc_tolerant rfl (Nat.lt_trans (by decide) h20) (Nat.lt_trans (by decide) h20) fun _ _ => rfl
    obtain ⟨s', hr, _⟩ := t.encryptOK wideEnv Sample.st wideEnc wide_valid L
    have := h wideEnv Sample.st wideEnc wide_valid L.adlen_lt L.mlen_lt L.over _ (C50_union_writes t hu _ _ _ _ _ (by decide) hr)
    rcases this with h1 | ⟨_, h1⟩
    · exact absurd h1 (by decide)
    · exact Bool.noConfusion h1
  · have hl : t.limits.ext 20 ≤ 26 := (Sample.limits t).2
    have h20 := (Sample.limits t).1
    have hx : ∀ x ∈ accesses (t.aead.encrypt oddEnc) Sample.st, x.al = 1 := by
      intro x hx
      rcases h oddEnv Sample.st oddEnc oddEnc_valid h20 (Nat.lt_trans (by decide) h20) (Sample.readable _ _ hl) x hx with h1 | ⟨h1, _⟩
      · exact h1
      · exact absurd h1 hu
    have L : t.limits.Enc { oddEnv with strict := false } oddEnc :=
      Limits.enc_tolerant rfl h20 (Nat.lt_trans (by decide) h20) (Sample.readable _ _ hl)
    obtain ⟨s', ⟨tr, hr⟩, _⟩ := t.encryptOK { oddEnv with strict := false } Sample.st oddEnc
      (have V := oddEnc_valid; ⟨V.1, V.2, V.3, V.4, V.5, V.6, V.7, V.8, V.9, V.10, V.11, V.12, V.13, V.14, V.15, V.16, V.17⟩) L
    have hm := odd_misaligned t ht
    have he : run (t.aead.encrypt oddEnc) oddEnv Sample.st = run (t.aead.encrypt oddEnc) { oddEnv with strict := false } Sample.st :=
      chars_run _ { oddEnv with strict := false } _ oddEnv.base true hx
    rw [he, hr] at hm
    exact Bool.noConfusion hm

/-- Of the reference implementations it is true. -/
theorem C50_iff (t : Target) : CharAccess t ↔ byteWise t = true := by
  constructor
  · intro h
    by_cases ht : byteWise t = true
    · exact ht
    · exact absurd h (C50_false t (by simpa using ht))
  · intro ht e s a V _ _ _ x hx
    exact Or.inl (C50_encrypt_partial t ht e s a V x hx)

/-- The hypotheses of the theorems can be met. -/
example : byteWise (.ref .a128a) = true ∧ ValidEnc Sample.env Sample.enc ∧ ValidDec Sample.env Sample.dec :=
  ⟨rfl, Sample.validEnc, Sample.validDec⟩
example : readsByUnion .a128aBi32 = true ∧ 8 ≤ wideEnc.mlen := ⟨rfl, by decide⟩
/-- The list of accesses is not empty: encryption of the reference implementation begins with the store of the length. -/
example : (accesses ((Target.ref .a128a).aead.encrypt wideEnc) Sample.st).head? = some ⟨true, 1, ⟨1, 0⟩, 8⟩ := rfl

/-! ## `crypto_hash` -/

/-- Every call of `crypto_hash` that ends normally stores the digest through a pointer to `uint64_t`, in all implementations. -/
theorem C50_hash_writes (t : Target) (f : Ptr → Ptr → Nat → CM Int) (hf : t.hash = some f) (e : Env) (s s' : St) (a : HashArgs)
    (r : Int) (h : Runs (f a.out a.inp a.inlen) e s r s') :
    (⟨true, 8, a.out, 8⟩ : Access) ∈ accesses (f a.out a.inp a.inlen) s := by
  obtain ⟨D, -, rfl⟩ := Option.map_eq_some_iff.1 hf
  unfold Opt.cryptoHash at h ⊢
  obtain ⟨_, _, h1, h⟩ := runs_bind_inv h
  refine access_right h1 ?_
  obtain ⟨_, _, h1, h⟩ := runs_bind_inv h
  refine access_right h1 ?_
  obtain ⟨_, _, h1, h⟩ := runs_bind_inv h
  refine access_left h1 ?_
  unfold forN at h1 ⊢
  obtain ⟨_, _, h2, h1⟩ := runs_bind_inv h1
  refine access_right h2 ?_
  obtain ⟨_, _, h2, h1⟩ := runs_bind_inv h1
  refine access_left h2 ?_
  unfold Opt.squeezeStep at h2 ⊢
  obtain ⟨_, _, h3, h2⟩ := runs_bind_inv h2
  exact access_left h3 (List.mem_cons_self ..)

example : ∃ f s', Target.a128aOpt64.hash = some f ∧
    Runs (f sampleHash.out sampleHash.inp sampleHash.inlen) sampleHashEnv Sample.st 0 s' :=
  ⟨_, _, rfl, Target.hash_run (t := .a128aOpt64) rfl sampleHash_aligned sampleHash_valid _⟩

/-! ## The accesses are those of the execution -/

/-- The event of an access in the trace of an execution. -/
def Access.ev (x : Access) : Ev := if x.write then .wr x.p x.w else .rd x.p x.w

/-- Is the event an access to memory? -/
def isAccess : Ev → Bool
  | .rd .. | .wr .. => true
  | _ => false

/-- The list of accesses that the theorems of C50 are about is the sequence of loads and stores of the execution. -/
theorem C50_accesses (f : CM α) : ∀ {e : Env} {s s' : St} {a : α} {tr : List Ev}, run f e s = .ok a s' tr →
    (accesses f s).map Access.ev = tr.filter isAccess := by
  have key : ∀ {x : Out α} {ev : Ev} {a : α} {s' : St} {tr : List Ev}, x.cons ev = .ok a s' tr →
      ∃ tr', x = .ok a s' tr' ∧ tr = ev :: tr' := by
    intro x ev a s' tr h
    cases x with
    | ok b t tr' =>
      simp only [Out.cons, Out.ok.injEq] at h
      exact ⟨tr', by rw [h.1, h.2.1], h.2.2.symm⟩
    | ub u => exact nomatch h
  induction f with
  | ret a =>
    intro e s s' b tr h
    simp only [run, Out.ok.injEq] at h
    rw [← h.2.2]; rfl
  | ub u => intro e s s' b tr h; exact nomatch h
  | load al w p k ih =>
    intro e s s' b tr h
    unfold run at h
    split at h
    · split at h
      · obtain ⟨tr', h', rfl⟩ := key h
        rw [accesses, List.map_cons, ih _ h']; rfl
      · exact nomatch h
    · exact nomatch h
  | store al p bs k ih =>
    intro e s s' b tr h
    unfold run at h
    split at h
    · split at h
      · split at h
        · obtain ⟨tr', h', rfl⟩ := key h
          rw [accesses, List.map_cons, ih h']; rfl
        · exact nomatch h
      · exact nomatch h
    · exact nomatch h
  | branch c k ih =>
    intro e s s' b tr h
    obtain ⟨tr', h', rfl⟩ := key h
    rw [accesses, ih h']; rfl
  | getg g k ih =>
    intro e s s' b tr h
    obtain ⟨tr', h', rfl⟩ := key h
    rw [accesses, ih _ h']; rfl
  | setg g v k ih =>
    intro e s s' b tr h
    obtain ⟨tr', h', rfl⟩ := key h
    rw [accesses, ih h']; rfl

/-- Both kinds of accesses occur. -/
example (e : Env) (s s' : St) (a : EncArgs) (r : Int) (hm : 8 ≤ a.mlen) (tr : List Ev)
    (h : run (Target.a128aOpt64.aead.encrypt a) e s = .ok r s' tr) : .wr a.c 8 ∈ tr := by
  have h1 := List.mem_map_of_mem (f := Access.ev) (C50_union_writes .a128aOpt64 rfl e s s' a r hm ⟨tr, h⟩)
  rw [C50_accesses _ h] at h1
  exact (List.mem_filter.1 h1).1

end Props
