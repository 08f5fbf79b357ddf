import Verif.Proof.Calls
import Verif.Props.Sample
/-!
# Agreement of the implementations with the specification and with each other; stream cipher properties
-/

namespace Props
open C Model Spec

/-- **C07** The reference code (the dedicated directories `ref`, and the generic code `isapxv20` compiled for a parameter set)
computes the authenticated encryption of ISAP v2.0 ... -/
theorem C07_ref_encrypt (t : Target) (p : ParamSet) (ht : t = .ref p ∨ t = .x p) (e : Env) (s : St) (a : EncArgs)
    (V : ValidEnc e a) :
    ∃ s', Runs (t.aead.encrypt a) e s 0 s' ∧
      bytesAt s' a.c (a.mlen + 16) = p.spec.encrypt (bytesAt s a.k 16) (bytesAt s a.npub 16) (bytesAt s a.ad a.adlen)
        (bytesAt s a.m a.mlen) := by
  have L : t.limits.Enc e a := by
    rcases ht with rfl | rfl
    · exact Limits.enc_byBytes V
    · exact Limits.enc_byBytes V
  obtain ⟨s', h, _⟩ := t.encryptOK e s a V L
  refine ⟨s', h, ?_⟩
  rw [enc_c V L h]
  rcases ht with rfl | rfl
  · rfl
  · rfl

/-- **C07** ... and its verified decryption: -1 if that fails; otherwise 0, with the plaintext in `m`. -/
theorem C07_ref_decrypt (t : Target) (p : ParamSet) (ht : t = .ref p ∨ t = .x p) (e : Env) (s : St) (d : DecArgs)
    (V : ValidDec e d) :
    ∃ r s', Runs (t.aead.decrypt d) e s r s' ∧
      match p.spec.decrypt (bytesAt s d.k 16) (bytesAt s d.npub 16) (bytesAt s d.ad d.adlen) (bytesAt s d.c (d.clen - 16))
        (bytesAt s (d.c + (d.clen - 16)) 16) with
      | none => r = -1
      | some M => r = 0 ∧ (le64 (bytesAt s' d.mlen 8)).toNat = M.length ∧ bytesAt s' d.m (d.clen - 16) = M := by
  have L : t.limits.Dec e d := by
    rcases ht with rfl | rfl
    · exact Limits.dec_byBytes V.toValidDecIn
    · exact Limits.dec_byBytes V.toValidDecIn
  have hacc : t.accepts s d ↔ bytesAt s (d.c + (d.clen - 16)) 16 =
        p.spec.mac (bytesAt s d.k 16) (bytesAt s d.npub 16) (bytesAt s d.ad d.adlen) (bytesAt s d.c (d.clen - 16)) := by
    rcases ht with rfl | rfl
    · exact Iff.rfl
    · exact Iff.rfl
  have hpl : t.plain s d = p.spec.enc (bytesAt s d.k 16) (bytesAt s d.npub 16) (bytesAt s d.c (d.clen - 16)) := by
    rcases ht with rfl | rfl
    · rfl
    · rfl
  obtain ⟨r, s', h⟩ := dec_exists V L s
  refine ⟨r, s', h, ?_⟩
  unfold Params.decrypt
  rcases dec_run V L h with ⟨h1, rfl, hm⟩ | ⟨h1, rfl, hm⟩
  · rw [if_pos (hacc.1 h1)]
    obtain ⟨h2, h3⟩ := dec_m V hm
    refine ⟨rfl, ?_, by rw [h2, hpl]⟩
    rw [h3, le64_toLe64, BitVec.toNat_ofNat, Nat.mod_eq_of_lt (by have := V.clen_lt; omega)]
    simp
  · rw [if_neg (fun h => h1 (hacc.2 h))]

example : ValidEnc Sample.env Sample.enc ∧ ValidDec Sample.env Sample.dec := ⟨Sample.validEnc, Sample.validDec⟩

/-- **C08** Any two conforming implementations of a parameter set produce the same ciphertext and tag from the same input
(at whatever addresses). -/
theorem C08_same_ciphertext_partial (t1 t2 : Target) (h1 : t1.conforming = true) (h2 : t2.conforming = true) (hset : t1.set = t2.set)
    (e1 e2 : Env) (s1 s2 s1' s2' : St) (a1 a2 : EncArgs) (r1 r2 : Int)
    (V1 : ValidEnc e1 a1) (L1 : t1.limits.Enc e1 a1) (V2 : ValidEnc e2 a2) (L2 : t2.limits.Enc e2 a2)
    (hk : bytesAt s1 a1.k 16 = bytesAt s2 a2.k 16) (hn : bytesAt s1 a1.npub 16 = bytesAt s2 a2.npub 16)
    (had : bytesAt s1 a1.ad a1.adlen = bytesAt s2 a2.ad a2.adlen)
    (hm : bytesAt s1 a1.m a1.mlen = bytesAt s2 a2.m a2.mlen)
    (hr1 : Runs (t1.aead.encrypt a1) e1 s1 r1 s1') (hr2 : Runs (t2.aead.encrypt a2) e2 s2 r2 s2') :
    bytesAt s1' a1.c (a1.mlen + 16) = bytesAt s2' a2.c (a2.mlen + 16) := by
  rw [enc_c V1 L1 hr1, enc_c V2 L2 hr2, Target.out, Target.out, t1.spec_eq h1, t2.spec_eq h2, hset, hk, hn, had, hm]

/-- **C08** A ciphertext produced by one conforming implementation is accepted by every other one of the same parameter set
(stp or not), which returns the original message. -/
theorem C08_cross_decrypt_partial (t1 t2 : Target) (h1 : t1.conforming = true) (h2 : t2.conforming = true) (hset : t1.set = t2.set)
    (e e' : Env) (s s1 s2 : St) (a : EncArgs) (d : DecArgs) (r : Int)
    (V : ValidEnc e a) (L : t1.limits.Enc e a) (V' : ValidDec e' d) (L' : t2.limits.Dec e' d)
    (h : Runs (t1.aead.encrypt a) e s r s1)
    (hk : bytesAt s2 d.k 16 = bytesAt s a.k 16)
    (hn : bytesAt s2 d.npub 16 = bytesAt s a.npub 16)
    (had : bytesAt s2 d.ad d.adlen = bytesAt s a.ad a.adlen)
    (hlen : d.clen = (le64 (bytesAt s1 a.clen 8)).toNat)
    (hc : bytesAt s2 d.c d.clen = bytesAt s1 a.c d.clen) :
    ∃ s3, Runs (t2.aead.decrypt d) e' s2 0 s3 ∧
      (le64 (bytesAt s3 d.mlen 8)).toNat = a.mlen ∧
      bytesAt s3 d.m a.mlen = bytesAt s a.m a.mlen := by
  have hcl : d.clen = a.mlen + 16 := by
    rw [hlen, enc_clen V L h, le64_toLe64, BitVec.toNat_ofNat, Nat.mod_eq_of_lt V.mlen_lt]
  rw [hcl, enc_c V L h, ← hcl, Target.out, t1.spec_eq h1, hset, ← t2.spec_eq h2] at hc
  obtain ⟨hacc, hp⟩ := accepts_of_encrypt (by omega) hk hn had hc
  obtain ⟨s3, hr, hm⟩ := dec_accept V' L' hacc
  obtain ⟨h1, h2⟩ := dec_m V' hm
  refine ⟨s3, hr, ?_, ?_⟩
  · rw [h2, le64_toLe64, BitVec.toNat_ofNat, Nat.mod_eq_of_lt (by have := V.mlen_lt; omega)]; omega
  · rw [← hp, ← h1, hcl]; rfl

/-- Any two implementations can be compared on the sample call. -/
example (t1 t2 : Target) : ∃ s1 s2, Runs (t1.aead.encrypt Sample.enc) Sample.env Sample.st 0 s1 ∧
    Runs (t2.aead.encrypt Sample.enc) Sample.env Sample.st 0 s2 := by
  obtain ⟨s1, h1, _⟩ := t1.encryptOK _ Sample.st _ Sample.validEnc (Sample.limitsEnc t1)
  obtain ⟨s2, h2, _⟩ := t2.encryptOK _ Sample.st _ Sample.validEnc (Sample.limitsEnc t2)
  exact ⟨s1, s2, h1, h2⟩

/-- **C18** Encryption is a stream cipher: there is a keystream, a function of key and nonce only, such that the body of every
ciphertext is the message xored with it (all implementations). -/
theorem C18_stream_cipher (t : Target) : ∃ ks : (K N : List Byte) → (i : Nat) → Byte,
    ∀ (e : Env) (s s' : St) (a : EncArgs) (r : Int), ValidEnc e a → t.limits.Enc e a → Runs (t.aead.encrypt a) e s r s' →
      ∀ i, i < a.mlen → s'.mem a.c.blk (a.c.off + i) =
        s.mem a.m.blk (a.m.off + i) ^^^ ks (bytesAt s a.k 16) (bytesAt s a.npub 16) i := by
  refine ⟨t.spec.keystream, fun e s s' a r V L h i hi => ?_⟩
  have hc := enc_c V L h
  rw [bytesAt_add, Target.out, Params.encrypt] at hc
  have h1 := (List.append_inj hc (by simp)).1
  have h2 := congrArg (·[i]?) h1
  simp only [getElem?_bytesAt, hi, if_true, Params.enc, List.getElem?_mapIdx, Option.map_some] at h2
  exact Option.some.inj h2

/-- **C18**, decryption: an accepted call xors the body with the same keystream. -/
theorem C18_decrypt_same_keystream (t : Target) : ∃ ks : (K N : List Byte) → (i : Nat) → Byte,
    (∀ (e : Env) (s s' : St) (a : EncArgs) (r : Int), ValidEnc e a → t.limits.Enc e a → Runs (t.aead.encrypt a) e s r s' →
      ∀ i, i < a.mlen → s'.mem a.c.blk (a.c.off + i) =
        s.mem a.m.blk (a.m.off + i) ^^^ ks (bytesAt s a.k 16) (bytesAt s a.npub 16) i) ∧
    (∀ (e : Env) (s s' : St) (d : DecArgs), ValidDec e d → t.limits.Dec e d → Runs (t.aead.decrypt d) e s 0 s' →
      ∀ i, i < d.clen - 16 → s'.mem d.m.blk (d.m.off + i) =
        s.mem d.c.blk (d.c.off + i) ^^^ ks (bytesAt s d.k 16) (bytesAt s d.npub 16) i) := by
  refine ⟨t.spec.keystream, fun e s s' a r V L h i hi => ?_, fun e s s' d V L h i hi => ?_⟩
  · have hc := enc_c V L h
    rw [bytesAt_add, Target.out, Params.encrypt] at hc
    have h1 := (List.append_inj hc (by simp)).1
    have h2 := congrArg (·[i]?) h1
    simp only [getElem?_bytesAt, hi, if_true, Params.enc, List.getElem?_mapIdx, Option.map_some] at h2
    exact Option.some.inj h2
  · have h1 := (dec_m V (dec_zero V L h).2).1
    have h2 := congrArg (·[i]?) h1
    simp only [Target.plain, getElem?_bytesAt, hi, if_true, Params.enc, List.getElem?_mapIdx, Option.map_some] at h2
    exact Option.some.inj h2

/-- **C19** Prefix property: if the message of one call is a prefix of the message of another call under the same key and
nonce (and arbitrary associated data), its ciphertext body is a prefix of the other's. -/
theorem C19_prefix (t : Target) (e1 e2 : Env) (s1 s2 s1' s2' : St) (a1 a2 : EncArgs) (r1 r2 : Int)
    (V1 : ValidEnc e1 a1) (L1 : t.limits.Enc e1 a1) (V2 : ValidEnc e2 a2) (L2 : t.limits.Enc e2 a2)
    (hk : bytesAt s1 a1.k 16 = bytesAt s2 a2.k 16) (hn : bytesAt s1 a1.npub 16 = bytesAt s2 a2.npub 16)
    (hm : bytesAt s1 a1.m a1.mlen <+: bytesAt s2 a2.m a2.mlen)
    (hr1 : Runs (t.aead.encrypt a1) e1 s1 r1 s1') (hr2 : Runs (t.aead.encrypt a2) e2 s2 r2 s2') :
    bytesAt s1' a1.c a1.mlen <+: bytesAt s2' a2.c a2.mlen := by
  have hc1 := enc_c V1 L1 hr1
  have hc2 := enc_c V2 L2 hr2
  rw [bytesAt_add, Target.out, Params.encrypt] at hc1 hc2
  rw [(List.append_inj hc1 (by simp)).1, (List.append_inj hc2 (by simp)).1, hk, hn]
  obtain ⟨x, hx⟩ := hm
  rw [← hx, Params.enc, Params.enc, List.mapIdx_append]
  exact List.prefix_append _ _

/-- **C20** Encryption is injective: under one key, nonce and associated data, equal ciphertexts come from equal messages.
Equality of the bodies is enough. -/
theorem C20_injective (t : Target) (e1 e2 : Env) (s1 s2 s1' s2' : St) (a1 a2 : EncArgs) (r1 r2 : Int)
    (V1 : ValidEnc e1 a1) (L1 : t.limits.Enc e1 a1) (V2 : ValidEnc e2 a2) (L2 : t.limits.Enc e2 a2)
    (hk : bytesAt s1 a1.k 16 = bytesAt s2 a2.k 16) (hn : bytesAt s1 a1.npub 16 = bytesAt s2 a2.npub 16)
    (hr1 : Runs (t.aead.encrypt a1) e1 s1 r1 s1') (hr2 : Runs (t.aead.encrypt a2) e2 s2 r2 s2')
    (hc : bytesAt s1' a1.c a1.mlen = bytesAt s2' a2.c a2.mlen) :
    bytesAt s1 a1.m a1.mlen = bytesAt s2 a2.m a2.mlen := by
  have hc1 := enc_c V1 L1 hr1
  have hc2 := enc_c V2 L2 hr2
  rw [bytesAt_add, Target.out, Params.encrypt] at hc1 hc2
  rw [(List.append_inj hc1 (by simp)).1, (List.append_inj hc2 (by simp)).1, hk, hn] at hc
  have := congrArg (t.spec.enc (bytesAt s2 a2.k 16) (bytesAt s2 a2.npub 16)) hc
  rwa [Params.enc_enc, Params.enc_enc] at this

/-- The hypotheses of C19 are met by two calls with messages of 2 and 3 bytes. -/
example (t : Target) : ValidEnc Sample.env { Sample.enc with mlen := 2 } ∧
    t.limits.Enc Sample.env { Sample.enc with mlen := 2 } ∧
    bytesAt Sample.st Sample.enc.m 2 <+: bytesAt Sample.st Sample.enc.m Sample.enc.mlen := by
  have V := Sample.validEnc
  have L := Sample.limitsEnc t
  refine ⟨?_, Limits.enc_tolerant rfl L.adlen_lt (Nat.lt_trans (by decide : 2 < 3) L.mlen_lt) L.over, by decide⟩
  exact { V with
    k := V.k, npub := V.npub, ad := V.ad, m := V.m.mono (by decide), c := V.c.mono (by decide), clen := V.clen
    mlen_lt := by decide, c_m := by decide, c_ad := by decide, c_npub := by decide, c_k := by decide, clen_c := by decide
    clen_m := by decide }

end Props
