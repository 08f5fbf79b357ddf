import Verif.Props.EffectiveTypeLocal
import Verif.Proof.AccessKinds
/-!
# The versions that read through a union: which accesses are by words (C50)

In these versions words of key, nonce, associated data and ciphertext are read through `lane_t`, a union that contains characters.
The exception is the statement `*(uint64_t *)c = *(uint64_t *)m ^ t0.x` of `isap_enc`.  The models do not tell reads through a union
from reads through `uint64_t *`; the theorems here are about stores.
-/

namespace Props
open C Model Spec Model.Opt

/-- The access is not a store by words, or it stores a full block at `out`. -/
def OnlyBlocks (out : Ptr) (len : Nat) (x : Access) : Prop :=
  x.write = true → x.al ≠ 1 → ∃ i, 8 * i + 8 ≤ len ∧ x = ⟨true, 8, out + 8 * i, 8⟩

/-- The same without a bound. -/
def OnlyWords (out : Ptr) (x : Access) : Prop :=
  x.write = true → x.al ≠ 1 → ∃ i, x = ⟨true, 8, out + 8 * i, 8⟩

theorem mild_blocks (out : Ptr) (len : Nat) : Mild (OnlyBlocks out len) :=
  ⟨fun _ _ _ h => Bool.noConfusion h, fun _ _ _ h => absurd rfl h⟩

theorem mild_words (out : Ptr) : Mild (OnlyWords out) :=
  ⟨fun _ _ _ h => Bool.noConfusion h, fun _ _ _ h => absurd rfl h⟩

theorem union_enc {D : Prims} (Q : D.Quiet) (a : EncArgs) : AllAcc (OnlyBlocks a.c a.mlen) ((Opt.impl D).aead.encrypt a) :=
  acc_encrypt (I := Opt.impl D) (mild_blocks ..) (fun _ _ _ _ _ _ => acc_mac Q (mild_blocks ..) _ _ _ _ _ _) rfl a
    (acc_enc Q (mild_blocks ..) _ _ _ _ _ fun i hi _ _ => ⟨i, hi, rfl⟩)

theorem union_stp_enc {D : StpPrims} (Q : D.toPrims.Quiet) (a : EncArgs) : AllAcc (OnlyBlocks a.c a.mlen) ((Stp.impl D).aead.encrypt a) :=
  acc_encrypt (I := Stp.impl D) (mild_blocks ..) (fun _ _ _ _ _ _ => Stp.acc_stpMac (mild_blocks ..) Q _ _ _ _ _ _) rfl a
    (acc_enc Q (mild_blocks ..) _ _ _ _ _ fun i hi _ _ => ⟨i, hi, rfl⟩)

theorem union_dec {D : Prims} (Q : D.Quiet) (u : Ptr) (a : DecArgs) : AllAcc (OnlyWords a.m) ((Opt.impl D).decryptAt u a) :=
  acc_decryptAt1 (I := Opt.impl D) (mild_words _) (fun _ _ _ _ _ _ => acc_mac Q (mild_words _) _ _ _ _ _ _) rfl u a
    fun _ => acc_enc Q (mild_words _) _ _ _ _ _ fun i _ _ _ => ⟨i, rfl⟩

theorem union_stp_dec {D : StpPrims} (Q : D.toPrims.Quiet) (QP : ∀ {P : Access → Prop} s, AllAcc P (D.pPVP s)) (u v : Ptr) (a : DecArgs) :
    AllAcc (OnlyWords a.m) (Stp.decryptAt D u v a) :=
  Stp.acc_stpDecryptAt (mild_words _) Q QP u v a fun _ => acc_enc Q (mild_words _) _ _ _ _ _ fun i _ _ _ => ⟨i, rfl⟩

/-- **C50** The versions that read through the union store by words only the full 8-byte blocks of the ciphertext; everything else that
they store (the tag, the last bytes, the length) is stored by characters, by `memcpy` or with its own type: encryption, for all
arguments and memory contents, ... -/
theorem C50_union_encrypt_partial (t : Target) (ht : readsByUnion t = true) (s : St) (a : EncArgs) :
    ∀ x ∈ accesses (t.aead.encrypt a) s, x.write = true → x.al ≠ 1 → ∃ i, 8 * i + 8 ≤ a.mlen ∧ x = ⟨true, 8, a.c + 8 * i, 8⟩ := by
  cases t
  case a128aOpt64 => exact union_enc (quiet_unrolled ..) a s
  case a128aOpt32 => exact union_enc (quiet_unrolled ..) a s
  case a128aOpt32Compact => exact union_enc (quiet_via (quiet_switch _ _ _ _) _ _ _) a s
  case a128aOpt32Tiny => exact union_enc (quiet_via (fun _ s => quiet_tiny _ _ _ s) _ _ _) a s
  case a128aOpt32Stp => exact union_stp_enc (D := Opt32.primsStp) (quiet_via (quiet_switch7 _ _ _ _) _ _ _) a s
  case a128aOpt8 => exact union_enc (quiet_via (quiet_switch _ _ _ _) _ _ _) a s
  case a128aOpt8Tiny => exact union_enc (quiet_via (fun _ s => quiet_tiny _ _ _ s) _ _ _) a s
  case a128aBi8 => exact union_enc (quiet_via (quiet_switch _ _ _ _) _ _ _) a s
  case a128aBi32 => exact union_enc (quiet_unrolled ..) a s
  case a128aBi32Compact => exact union_enc (quiet_via (quiet_switch _ _ _ _) _ _ _) a s
  case a128aBi32Stp => exact union_stp_enc (D := Bi32.primsStp) (quiet_via (quiet_switch7 _ _ _ _) _ _ _) a s
  case a128aBi32Armv6 => exact union_enc (quiet_unrolled ..) a s
  case a128aBi32Armv6m => exact union_enc (quiet_unrolled ..) a s
  case a128aBi32Armv6mCompact => exact union_enc (quiet_via (quiet_switch _ _ _ _) _ _ _) a s
  case a128aBi32Armv6mStp => exact union_stp_enc (D := Armv6m.primsStp) (quiet_via (quiet_switch7 _ _ _ _) _ _ _) a s
  case a128aBi32Armv7m => exact union_enc (quiet_unrolled ..) a s
  all_goals exact Bool.noConfusion ht

/-- ... and decryption, with the local arrays `tag`, or `T` and `T_star`, at `u` and `v`: only words of the plaintext.  So these arrays are
not stored to by words, and the stp variants, which are the only ones to read them by words, do so through the union. -/
theorem C50_union_decrypt_partial (t : Target) (ht : readsByUnion t = true) (s : St) (a : DecArgs) (u v : Ptr) :
    ∀ x ∈ accesses (t.decryptAt u v a) s, x.write = true → x.al ≠ 1 → ∃ i, x = ⟨true, 8, a.m + 8 * i, 8⟩ := by
  cases t
  case a128aOpt64 => exact union_dec (quiet_unrolled ..) u a s
  case a128aOpt32 => exact union_dec (quiet_unrolled ..) u a s
  case a128aOpt32Compact => exact union_dec (quiet_via (quiet_switch _ _ _ _) _ _ _) u a s
  case a128aOpt32Tiny => exact union_dec (quiet_via (fun _ s => quiet_tiny _ _ _ s) _ _ _) u a s
  case a128aOpt32Stp => exact union_stp_dec (D := Opt32.primsStp) (quiet_via (quiet_switch7 _ _ _ _) _ _ _) (quiet_switch7 _ _ _ _ _) u v a s
  case a128aOpt8 => exact union_dec (quiet_via (quiet_switch _ _ _ _) _ _ _) u a s
  case a128aOpt8Tiny => exact union_dec (quiet_via (fun _ s => quiet_tiny _ _ _ s) _ _ _) u a s
  case a128aBi8 => exact union_dec (quiet_via (quiet_switch _ _ _ _) _ _ _) u a s
  case a128aBi32 => exact union_dec (quiet_unrolled ..) u a s
  case a128aBi32Compact => exact union_dec (quiet_via (quiet_switch _ _ _ _) _ _ _) u a s
  case a128aBi32Stp => exact union_stp_dec (D := Bi32.primsStp) (quiet_via (quiet_switch7 _ _ _ _) _ _ _) (quiet_switch7 _ _ _ _ _) u v a s
  case a128aBi32Armv6 => exact union_dec (quiet_unrolled ..) u a s
  case a128aBi32Armv6m => exact union_dec (quiet_unrolled ..) u a s
  case a128aBi32Armv6mCompact => exact union_dec (quiet_via (quiet_switch _ _ _ _) _ _ _) u a s
  case a128aBi32Armv6mStp =>
    exact union_stp_dec (D := Armv6m.primsStp) (quiet_via (quiet_switch7 _ _ _ _) _ _ _) (quiet_switch7 _ _ _ _ _) u v a s
  case a128aBi32Armv7m => exact union_dec (quiet_unrolled ..) u a s
  all_goals exact Bool.noConfusion ht

/-- The theorems are not about an empty set of accesses: encryption of 8 bytes has the store by words, and the store of the length. -/
example : ∃ s', Runs (Target.a128aBi32.aead.encrypt wideEnc) wideEnv Sample.st 0 s' := by
  have h20 := (Sample.limits .a128aBi32).1
  obtain ⟨s', h, _⟩ := Target.a128aBi32.encryptOK wideEnv Sample.st wideEnc wide_valid
    (Limits.enc_tolerant rfl (Nat.lt_trans (by decide) h20) (Nat.lt_trans (by decide) h20) fun _ _ => rfl)
  exact ⟨s', h⟩
example (s' : St) (h : Runs (Target.a128aBi32.aead.encrypt wideEnc) wideEnv Sample.st 0 s') :
    (⟨true, 8, wideEnc.c, 8⟩ : Access) ∈ accesses (Target.a128aBi32.aead.encrypt wideEnc) Sample.st :=
  C50_union_writes .a128aBi32 rfl _ _ _ _ _ (by decide) h

/-! ## `crypto_hash` -/

theorem no_writes {f : CM α} (h : AllAcc (fun x => x.write = false) f) (s : St) : (accesses f s).filter (·.write) = [] := by
  rw [List.filter_eq_nil_iff]
  intro x hx
  rw [h s x hx]
  decide

/-- The loads of `ABSORB_LANES`. -/
theorem absorb_reads {D : Prims} (Q : D.Quiet) (st : State) (src : Ptr) (len : Nat) :
    AllAcc (fun x => x.write = false) (absorbLanes D st src len) := by
  have ld : ∀ {β : Type} (al w : Nat) (p : Ptr) {g : List Byte → β}, AllAcc (fun x => x.write = false) (load al w p >>= fun b => pure (g b)) :=
    fun al w p => AllAcc.bind (AllAcc.load (P := fun x => x.write = false) rfl) fun _ => .ret _
  refine AllAcc.bind (.whileGe _ _ _ fun j s _ => (ld _ _ _).bind fun _ => Q.pH _) fun s => ?_
  refine (AllAcc.branch _).bind fun _ => .ite ?_ (Q.pH _)
  exact (AllAcc.forN (fun _ _ => (ld _ _ _).bind fun _ => .ret _) _ _ _).bind fun _ => Q.pH _

theorem squeeze_writes {D : Prims} (Q : D.Quiet) (out : Ptr) {e : Env} : ∀ (n i : Nat) (st : State) {s s' : St} {r : State},
    Runs (forN n i (squeezeStep D out) st) e s r s' →
    (accesses (forN n i (squeezeStep D out) st) s).filter (·.write) = (List.range' i n).map fun j => ⟨true, 8, out + 8 * j, 8⟩ := by
  intro n
  induction n with
  | zero =>
    intro i st s s' r h
    exact no_writes (AllAcc.bind (.branch _) fun _ => .ret _) s
  | succ n ih =>
    intro i st s s' r h
    unfold forN at h ⊢
    obtain ⟨_, _, h1, h⟩ := runs_bind_inv h
    rw [accesses_bind _ _ h1, List.filter_append, no_writes (.branch _), List.nil_append]
    obtain ⟨_, _, h2, h⟩ := runs_bind_inv h
    rw [accesses_bind _ _ h2, List.filter_append, ih _ _ h]
    unfold squeezeStep at h2 ⊢
    obtain ⟨_, _, h3, h2⟩ := runs_bind_inv h2
    rw [accesses_bind _ _ h3, List.filter_append, no_writes (AllAcc.bind (.branch _) fun _ => .ite (Q.pH _) (.ret _))]
    rfl

/-- Every call of `crypto_hash` that ends normally makes exactly four stores: the words of the digest, in order.  It stores to nothing
else, and every one of these stores is through a pointer to `uint64_t`. -/
theorem C50_hash_stores (t : Target) (f : Ptr → Ptr → Nat → CM Int) (hf : t.hash = some f) (e : Env) (s s' : St) (a : HashArgs) (r : Int)
    (h : Runs (f a.out a.inp a.inlen) e s r s') :
    (accesses (f a.out a.inp a.inlen) s).filter (·.write) =
      [⟨true, 8, a.out + 0, 8⟩, ⟨true, 8, a.out + 8, 8⟩, ⟨true, 8, a.out + 16, 8⟩, ⟨true, 8, a.out + 24, 8⟩] := by
  obtain ⟨D, hD, rfl⟩ := Option.map_eq_some_iff.1 hf
  have Q : D.Quiet := by
    cases t
    case a128aOpt64 => exact Option.some.inj hD ▸ quiet_unrolled ..
    case a128aOpt32 => exact Option.some.inj hD ▸ quiet_unrolled ..
    case a128aOpt32Compact => exact Option.some.inj hD ▸ quiet_via (quiet_switch _ _ _ _) _ _ _
    case a128aOpt32Tiny => exact Option.some.inj hD ▸ quiet_via (fun _ s => quiet_tiny _ _ _ s) _ _ _
    case a128aOpt32Stp => exact Option.some.inj hD ▸ quiet_via (quiet_switch7 _ _ _ _) _ _ _
    case a128aOpt8 => exact Option.some.inj hD ▸ quiet_via (quiet_switch _ _ _ _) _ _ _
    case a128aOpt8Tiny => exact Option.some.inj hD ▸ quiet_via (fun _ s => quiet_tiny _ _ _ s) _ _ _
    case a128aBi8 => exact Option.some.inj hD ▸ quiet_via (quiet_switch _ _ _ _) _ _ _
    case a128aBi32 => exact Option.some.inj hD ▸ quiet_unrolled ..
    case a128aBi32Compact => exact Option.some.inj hD ▸ quiet_via (quiet_switch _ _ _ _) _ _ _
    case a128aBi32Stp => exact Option.some.inj hD ▸ quiet_via (quiet_switch7 _ _ _ _) _ _ _
    case a128aBi32Armv6 => exact Option.some.inj hD ▸ quiet_unrolled ..
    case a128aBi32Armv6m => exact Option.some.inj hD ▸ quiet_unrolled ..
    case a128aBi32Armv6mCompact => exact Option.some.inj hD ▸ quiet_via (quiet_switch _ _ _ _) _ _ _
    case a128aBi32Armv6mStp => exact Option.some.inj hD ▸ quiet_via (quiet_switch7 _ _ _ _) _ _ _
    case a128aBi32Armv7m => exact Option.some.inj hD ▸ quiet_unrolled ..
    all_goals exact nomatch hD
  unfold cryptoHash at h ⊢
  obtain ⟨_, _, h1, h⟩ := runs_bind_inv h
  rw [accesses_bind _ _ h1, List.filter_append, no_writes (Q.pH _), List.nil_append]
  obtain ⟨_, _, h2, h⟩ := runs_bind_inv h
  rw [accesses_bind _ _ h2, List.filter_append, no_writes (absorb_reads Q _ _ _), List.nil_append]
  obtain ⟨_, _, h3, h⟩ := runs_bind_inv h
  rw [accesses_bind _ _ h3, List.filter_append, squeeze_writes Q _ _ _ _ h3]
  rfl

example : ∃ f s', Target.a128aOpt32Tiny.hash = some f ∧
    Runs (f sampleHash.out sampleHash.inp sampleHash.inlen) sampleHashEnv Sample.st 0 s' :=
  ⟨_, _, rfl, Target.hash_run (t := .a128aOpt32Tiny) rfl sampleHash_aligned sampleHash_valid _⟩

end Props
