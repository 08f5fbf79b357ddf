import Verif.Proof.MixedWitness
import Verif.Props.ByteOrder
import Verif.Props.Collision
/-!
# C52: padding on platforms of either byte order

The tag of one input is valid for another input only because of a collision, on platforms of either byte order: this holds for the
reference code and for the implementations whose permutation only is another one on big-endian platforms (`C46_mode`).  It does not
hold for the implementations that add the padding bit as a byte in one place and as a number in another: on a big-endian platform,
zero bytes can be appended to the associated data and to the ciphertext, and the tag stays valid.
-/

namespace Props
open C Model Spec

/-! ## Where it holds -/

/-- One of the three kinds of collisions of C42. -/
def Collision (P : Params) (K N A C N' A' C' : List Byte) : Prop :=
  InnerCollision P N A C N' A' C' ∨ RekeyCollision P K N A C N' A' C' ∨ FinalCollision P K N A C N' A' C'

/-- **C52** for the Ascon reference code: if the tag of a ciphertext that was made is accepted for another nonce, associated data
or ciphertext body, there is a collision of the specified functions. -/
theorem C52_ref_partial {o : ByteOrder} {p : ParamSet} (hp : Ascons p) (e e' : Env) (s s1 s' s1' : St) (a : EncArgs) (d : DecArgs)
    (r : Int) (V : ValidEnc e a) (V' : ValidDec e' d) (h : Runs ((asconRefIn o p.cfg).encrypt a) e s r s1)
    (h' : Runs ((asconRefIn o p.cfg).decrypt d) e' s' 0 s1')
    (hk : bytesAt s a.k 16 = bytesAt s' d.k 16)
    (htag : bytesAt s1 (a.c + a.mlen) 16 = bytesAt s' (d.c + (d.clen - 16)) 16)
    (hne : (bytesAt s a.npub 16, bytesAt s a.ad a.adlen, bytesAt s1 a.c a.mlen) ≠
      (bytesAt s' d.npub 16, bytesAt s' d.ad d.adlen, bytesAt s' d.c (d.clen - 16))) :
    Collision p.spec (bytesAt s a.k 16) (bytesAt s a.npub 16) (bytesAt s a.ad a.adlen) (bytesAt s1 a.c a.mlen)
      (bytesAt s' d.npub 16) (bytesAt s' d.ad d.adlen) (bytesAt s' d.c (d.clen - 16)) := by
  refine C42_same_tag p _ _ _ _ _ _ _ (by simp) (by simp) (by simp) hne ?_
  obtain ⟨s2, hr, -, hb⟩ := C46_encrypt_partial (o := o) hp (s := s) V
  obtain ⟨-, rfl⟩ := Runs.det h hr
  rw [bytesAt_add, Params.encrypt] at hb
  obtain ⟨h1, h2⟩ := List.append_inj hb (by simp)
  obtain ⟨r', s3, hr', -, -, ha, -⟩ := C46_decrypt_partial (o := o) hp (s := s') V'
  obtain ⟨rfl, -⟩ := Runs.det h' hr'
  rw [← h1] at h2
  rw [← h2, htag, ha.1 rfl, hk]

/-- **C52** for opt_64, opt_32, opt_32_compact, opt_32_tiny, opt_8 and opt_8_tiny of isapa128av20: for each of them and each byte
order there is a bijection, such that a tag is accepted for another input only if there is a collision of ISAP-A-128a with this
bijection as its permutation. -/
theorem C52_opt_partial (v : PortableA) (o : ByteOrder) : ∃ perm : Nat → List Byte → List Byte,
    (∀ n, BijOn 40 (perm n)) ∧ (o = .little → perm = Ascon.perm) ∧
    ∀ (e e' : Env) (s s1 s' s1' : St) (a : EncArgs) (d : DecArgs) (r : Int),
      ValidEnc e a → v.target.limits.Enc e a → ValidDec e' d → v.target.limits.Dec e' d →
      Runs ((v.aead o).encrypt a) e s r s1 → Runs ((v.aead o).decrypt d) e' s' 0 s1' →
      bytesAt s a.k 16 = bytesAt s' d.k 16 →
      bytesAt s1 (a.c + a.mlen) 16 = bytesAt s' (d.c + (d.clen - 16)) 16 →
      (bytesAt s a.npub 16, bytesAt s a.ad a.adlen, bytesAt s1 a.c a.mlen) ≠
        (bytesAt s' d.npub 16, bytesAt s' d.ad d.adlen, bytesAt s' d.c (d.clen - 16)) →
      Collision { isapA128a with perm := perm } (bytesAt s a.k 16) (bytesAt s a.npub 16) (bytesAt s a.ad a.adlen)
        (bytesAt s1 a.c a.mlen) (bytesAt s' d.npub 16) (bytesAt s' d.ad d.adlen) (bytesAt s' d.c (d.clen - 16)) := by
  obtain ⟨perm, hb, hl, henc, hdec⟩ := C46_mode v o
  refine ⟨perm, hb, hl, ?_⟩
  intro e e' s s1 s' s1' a d r V L V' L' h h' hk htag hne
  have W : Params.Wf { isapA128a with perm := perm } :=
    { r_pos := (by decide : 0 < 8), r_lt := (by decide : 8 < 40), n_ge := (by decide : 24 ≤ 40)
      perm_len := fun k S h => (hb k).len S h }
  refine collision_of_same_tag W (hb _) _ _ _ _ _ _ _ (by simp) (by simp) (by simp) hne ?_
  obtain ⟨s2, hr, -, hc, -⟩ := henc e s a V L
  obtain ⟨-, rfl⟩ := Runs.det h hr
  rw [bytesAt_add, Params.encrypt] at hc
  obtain ⟨h1, h2⟩ := List.append_inj hc (by simp)
  obtain ⟨r', s3, hr', -, -, ha, -⟩ := hdec e' s' d V' L'
  obtain ⟨rfl, -⟩ := Runs.det h' hr'
  rw [← h1] at h2
  rw [← h2, htag, ha.1 rfl, hk]

/-! ## The other portable implementations work with themselves -/

/-- On a little-endian platform these are the functions that the other properties are about. -/
theorem C46_mixed_little (v : MixedA) : v.aead .little = v.target.aead ∧
    (∀ h, v.hash .little = some h → v.target.hash = some h) := by
  cases v <;> refine ⟨rfl, ?_⟩ <;> intro h hh <;> first | exact hh | exact nomatch hh

theorem Mixed.enc_run (v : MixedA) (o : ByteOrder) {e : Env} {s s1 : St} {a : EncArgs} {r : Int} (V : ValidEnc e a)
    (L : v.target.limits.Enc e a) (h : Runs ((v.aead o).encrypt a) e s r s1) :
    r = 0 ∧ (word o (bytesAt s1 a.clen 8)).toNat = a.mlen + 16 ∧
    bytesAt s1 a.c a.mlen = (v.lanes o).cipher.enc (bytesAt s a.k 16) (bytesAt s a.npub 16) (bytesAt s a.m a.mlen) ∧
    bytesAt s1 (a.c + a.mlen) 16 =
      (v.lanes o).cipher.mac (bytesAt s a.k 16) (bytesAt s a.npub 16) (bytesAt s a.ad a.adlen) (bytesAt s1 a.c a.mlen) ∧
    ∀ (b i : Nat), ¬ InBuf a.clen 8 b i → ¬ InBuf a.c (a.mlen + 16) b i → s1.mem b i = s.mem b i := by
  have H := v.isImpl o
  obtain ⟨s', h', hm⟩ := Cipher.encrypts o H V L (s := s)
  obtain ⟨rfl, rfl⟩ := Runs.det h h'
  have hel : ((v.lanes o).cipher.enc (bytesAt s a.k 16) (bytesAt s a.npub 16) (bytesAt s a.m a.mlen)).length = a.mlen := by
    rw [H.ok.enc_len, length_bytesAt]
  have hl : ((v.lanes o).cipher.out (bytesAt s a.k 16) (bytesAt s a.npub 16) (bytesAt s a.ad a.adlen)
      (bytesAt s a.m a.mlen)).length = a.mlen + 16 := by
    rw [Cipher.out, List.length_append, hel, H.ok.mac_len]
  have hb : bytesAt s1 a.c (a.mlen + 16) = (v.lanes o).cipher.out (bytesAt s a.k 16) (bytesAt s a.npub 16)
      (bytesAt s a.ad a.adlen) (bytesAt s a.m a.mlen) := by
    rw [bytesAt_mem_congr hm, bytesAt_putBytes_same' _ _ _ hl]
  rw [bytesAt_add, Cipher.out] at hb
  obtain ⟨h1, h2⟩ := List.append_inj hb (by rw [hel, length_bytesAt])
  refine ⟨rfl, ?_, h1, by rw [h1]; exact h2, fun b i n1 n2 => ?_⟩
  · rw [bytesAt_mem_congr hm, bytesAt_putBytes_disjoint, bytesAt_putBytes_same' _ _ _ (by simp), word_bytes,
      BitVec.toNat_ofNat, Nat.mod_eq_of_lt V.mlen_lt]
    rw [hl]; exact V.clen_c
  · rw [hm, putBytes_frame hl n2, putBytes_frame (by simp) n1]

theorem Mixed.dec_run (v : MixedA) (o : ByteOrder) {e : Env} {s : St} {a : DecArgs} (V : ValidDec e a)
    (L : v.target.limits.Dec e a)
    (h : bytesAt s (a.c + (a.clen - 16)) 16 = (v.lanes o).cipher.mac (bytesAt s a.k 16) (bytesAt s a.npub 16)
      (bytesAt s a.ad a.adlen) (bytesAt s a.c (a.clen - 16))) :
    ∃ s', Runs ((v.aead o).decrypt a) e s 0 s' ∧ (word o (bytesAt s' a.mlen 8)).toNat = a.clen - 16 ∧
      bytesAt s' a.m (a.clen - 16) =
        (v.lanes o).cipher.enc (bytesAt s a.k 16) (bytesAt s a.npub 16) (bytesAt s a.c (a.clen - 16)) := by
  have H := v.isImpl o
  obtain ⟨s', hr, hm⟩ := (Cipher.decrypts o H V.toValidDecIn L).1 h V
  have hlt : a.clen - 16 < 2 ^ 64 := Nat.lt_of_le_of_lt (Nat.sub_le _ _) V.clen_lt
  have hel : ((v.lanes o).cipher.enc (bytesAt s a.k 16) (bytesAt s a.npub 16) (bytesAt s a.c (a.clen - 16))).length =
      a.clen - 16 := by
    rw [H.ok.enc_len, length_bytesAt]
  refine ⟨s', hr, ?_, ?_⟩
  · rw [bytesAt_mem_congr hm, bytesAt_putBytes_disjoint, bytesAt_putBytes_same' _ _ _ (by simp), word_bytes,
      BitVec.toNat_ofNat, Nat.mod_eq_of_lt hlt]
    rw [hel]; exact V.mlen_m
  · rw [bytesAt_mem_congr hm, bytesAt_putBytes_same' _ _ _ hel]

/-- **C46** for the other portable implementations: each decrypts what it has encrypted, with either byte order. -/
theorem C46_mixed_round_trip (v : MixedA) (o : ByteOrder) (e e' : Env) (s s1 s2 : St) (a : EncArgs) (d : DecArgs) (r : Int)
    (V : ValidEnc e a) (L : v.target.limits.Enc e a) (V' : ValidDec e' d) (L' : v.target.limits.Dec e' d)
    (h : Runs ((v.aead o).encrypt a) e s r s1)
    (hk : bytesAt s2 d.k 16 = bytesAt s a.k 16)
    (hn : bytesAt s2 d.npub 16 = bytesAt s a.npub 16)
    (had : bytesAt s2 d.ad d.adlen = bytesAt s a.ad a.adlen)
    (hlen : d.clen = (word o (bytesAt s1 a.clen 8)).toNat)
    (hc : bytesAt s2 d.c d.clen = bytesAt s1 a.c d.clen) :
    ∃ s3, Runs ((v.aead o).decrypt d) e' s2 0 s3 ∧
      (word o (bytesAt s3 d.mlen 8)).toNat = a.mlen ∧
      bytesAt s3 d.m a.mlen = bytesAt s a.m a.mlen := by
  obtain ⟨-, h1, h2, h3, -⟩ := Mixed.enc_run v o V L h
  rw [h1] at hlen
  have hl : d.clen - 16 = a.mlen := by omega
  rw [hlen, bytesAt_add, bytesAt_add] at hc
  obtain ⟨hC, hT⟩ := List.append_inj hc (by simp)
  obtain ⟨s3, r3, h4, h5⟩ := Mixed.dec_run v o V' L' (s := s2) (by rw [hl, hk, hn, had, hC, hT, h3])
  refine ⟨s3, r3, by rw [h4, hl], ?_⟩
  rw [hl] at h5
  rw [h5, hk, hn, hC, h2, (v.isImpl o).ok.enc_enc]

/-- **C46** fails for them: on a big-endian platform, for an all-zero key and nonce and no data, they produce a tag different from
that of the reference implementation of the parameter set on the same platform. -/
theorem C46_mixed_not (v : MixedA) : ∃ (e : Env) (s s1 s2 : St) (a : EncArgs), ValidEnc e a ∧
    Runs ((v.aead .big).encrypt a) e s 0 s1 ∧ Runs ((asconRefIn .big v.target.set.cfg).encrypt a) e s 0 s2 ∧
    bytesAt s1 a.c (a.mlen + 16) ≠ bytesAt s2 a.c (a.mlen + 16) := by
  have hp : Ascons v.target.set := by cases v <;> first | exact Or.inl rfl | exact Or.inr rfl
  obtain ⟨s2, h2, -, hc2⟩ := C46_encrypt_partial (o := .big) hp (s := zeroSt) emptyEnc_valid
  have L : v.target.limits.Enc Sample.env emptyEnc :=
    Limits.enc_tolerant rfl (Nat.lt_of_le_of_lt (Nat.zero_le _) (Sample.limits v.target).1)
      (Nat.lt_of_le_of_lt (Nat.zero_le _) (Sample.limits v.target).1) (by
        have hx : v.target.limits.ext 0 = 0 := by cases v <;> rfl
        intro i hi
        rw [show emptyEnc.adlen = 0 from rfl, hx] at hi
        exact absurd hi (Nat.not_lt_zero i))
  obtain ⟨s1, h1, -⟩ := Cipher.encrypts .big (v.isImpl .big) emptyEnc_valid L (s := zeroSt)
  obtain ⟨-, -, -, hT, -⟩ := Mixed.enc_run v .big emptyEnc_valid L h1
  refine ⟨Sample.env, zeroSt, s1, s2, emptyEnc, emptyEnc_valid, h1, h2, ?_⟩
  have hk : bytesAt zeroSt emptyEnc.k 16 = zeros 16 := zero_bytes _ _
  have hn : bytesAt zeroSt emptyEnc.npub 16 = zeros 16 := zero_bytes _ _
  have hA : bytesAt zeroSt emptyEnc.ad emptyEnc.adlen = [] := rfl
  have hM : bytesAt zeroSt emptyEnc.m emptyEnc.mlen = [] := rfl
  have hC : bytesAt s1 emptyEnc.c emptyEnc.mlen = [] := rfl
  have h0 : bytesAt s1 emptyEnc.c (emptyEnc.mlen + 16) = bytesAt s1 (emptyEnc.c + emptyEnc.mlen) 16 := rfl
  have he : v.target.set.spec.enc (zeros 16) (zeros 16) [] = [] := List.length_eq_zero_iff.1 (by simp)
  rw [hk, hn, hA, hC] at hT
  rw [hk, hn, hA, hM, Params.encrypt, he, List.nil_append] at hc2
  rw [hc2, h0, hT]
  exact v.tag_ne

/-- **C46** fails for `crypto_hash` of bi_32, bi_32_compact and bi_8: on a big-endian platform the digest of the empty string is
wrong. -/
theorem C46_mixed_not_hash (v : MixedA) {h : Ptr → Ptr → Nat → CM Int} (hh : v.hash .big = some h) :
    ∃ (e : Env) (a : HashArgs) (s s' : St), ValidHash e a ∧
    Runs (h a.out a.inp a.inlen) e s 0 s' ∧ bytesAt s' a.out 32 ≠ AsconHash.hash (bytesAt s a.inp a.inlen) := by
  let a : HashArgs := { sampleHash with inlen := 0 }
  have V : ValidHash sampleHashEnv a :=
    { inp := fun i hi => absurd hi (Nat.not_lt_zero i), out := sampleHash_valid.out, inlen_lt := by decide }
  refine ⟨sampleHashEnv, a, zeroSt, _, V, v.runs_hash .big hh ⟨.tolerant rfl .., .tolerant rfl ..⟩ V, ?_⟩
  rw [bytesAt_putBytes_same' _ _ _ (v.length_hash .big _)]
  exact v.digest_ne (by rw [hh]; exact nofun)

example : (MixedA.hash .big .bi32).isSome = true ∧ (MixedA.hash .big .bi8).isSome = true := ⟨rfl, rfl⟩

/-! ## Where it fails -/

/-- **C52** fails for these implementations on big-endian platforms, associated data: let a message be encrypted with associated
data that `Slack` describes (whose length is a multiple of 8; for isapa128v20/opt_64 not 0).  Then the ciphertext is accepted
with `slack` zero bytes appended to the associated data. -/
theorem C52_not_ad (v : MixedA) (e e' : Env) (s s1 s2 : St) (a : EncArgs) (d : DecArgs) (r : Int)
    (V : ValidEnc e a) (L : v.target.limits.Enc e a) (V' : ValidDec e' d) (L' : v.target.limits.Dec e' d)
    (h : Runs ((v.aead .big).encrypt a) e s r s1)
    (hslack : v.Slack (bytesAt s a.ad a.adlen))
    (hk : bytesAt s2 d.k 16 = bytesAt s a.k 16)
    (hn : bytesAt s2 d.npub 16 = bytesAt s a.npub 16)
    (had : bytesAt s2 d.ad d.adlen = bytesAt s a.ad a.adlen ++ zeros v.slack)
    (hlen : d.clen = a.mlen + 16)
    (hc : bytesAt s2 d.c d.clen = bytesAt s1 a.c d.clen) :
    ∃ s3, Runs ((v.aead .big).decrypt d) e' s2 0 s3 ∧ bytesAt s3 d.m a.mlen = bytesAt s a.m a.mlen := by
  obtain ⟨-, h1, h2, h3, -⟩ := Mixed.enc_run v .big V L h
  have hl : d.clen - 16 = a.mlen := by omega
  rw [hlen, bytesAt_add, bytesAt_add] at hc
  obtain ⟨hC, hT⟩ := List.append_inj hc (by simp)
  obtain ⟨s3, r3, h4, h5⟩ := Mixed.dec_run v .big V' L' (s := s2) (by rw [hl, hk, hn, had, hC, hT, h3, v.mac_ad hslack])
  refine ⟨s3, r3, ?_⟩
  rw [hl] at h5
  rw [h5, hk, hn, hC, h2, (v.isImpl .big).ok.enc_enc]

/-- **C52** fails for these implementations on big-endian platforms, ciphertext: let a message be encrypted whose ciphertext body is
of this kind.  Then the body with `slack` zero bytes appended is accepted with the same tag; the plaintext that is delivered begins
with the message. -/
theorem C52_not_ciphertext (v : MixedA) (e e' : Env) (s s1 s2 : St) (a : EncArgs) (d : DecArgs) (r : Int)
    (V : ValidEnc e a) (L : v.target.limits.Enc e a) (V' : ValidDec e' d) (L' : v.target.limits.Dec e' d)
    (h : Runs ((v.aead .big).encrypt a) e s r s1)
    (hslack : v.Slack (bytesAt s1 a.c a.mlen))
    (hk : bytesAt s2 d.k 16 = bytesAt s a.k 16)
    (hn : bytesAt s2 d.npub 16 = bytesAt s a.npub 16)
    (had : bytesAt s2 d.ad d.adlen = bytesAt s a.ad a.adlen)
    (hlen : d.clen = a.mlen + v.slack + 16)
    (hc : bytesAt s2 d.c d.clen = bytesAt s1 a.c a.mlen ++ zeros v.slack ++ bytesAt s1 (a.c + a.mlen) 16) :
    ∃ s3, Runs ((v.aead .big).decrypt d) e' s2 0 s3 ∧ (word .big (bytesAt s3 d.mlen 8)).toNat = a.mlen + v.slack ∧
      bytesAt s3 d.m a.mlen = bytesAt s a.m a.mlen := by
  obtain ⟨-, h1, h2, h3, -⟩ := Mixed.enc_run v .big V L h
  have hl : d.clen - 16 = a.mlen + v.slack := by omega
  rw [hlen, bytesAt_add] at hc
  obtain ⟨hC, hT⟩ := List.append_inj hc (by simp [zeros])
  obtain ⟨s3, r3, h4, h5⟩ := Mixed.dec_run v .big V' L' (s := s2) (by rw [hl, hk, hn, had, hC, hT, h3, v.mac_c hslack])
  refine ⟨s3, r3, by rw [h4, hl], ?_⟩
  rw [hl, hk, hn, hC] at h5
  have h6 := congrArg (List.take a.mlen) h5
  rw [bytesAt_take _ _ _ _ (by omega)] at h6
  rw [h6]
  show (xorStream 8 _ _).take _ = _
  rw [take_xorStream, List.take_append_of_le_length (by simp), List.take_of_length_le (by simp), h2]
  exact (v.isImpl .big).ok.enc_enc _ _ _

/-- **C52** fails for `crypto_hash` of bi_32 and bi_32_compact on big-endian platforms: five zero bytes after an input whose length
is a multiple of 8 do not change the digest. -/
theorem C52_not_hash (v : MixedA) {h : Ptr → Ptr → Nat → CM Int} (hh : v.hash .big = some h) (e e' : Env) (s s1 s' s1' : St)
    (a a' : HashArgs) (r r' : Int) (hal : AlignedHash e a) (V : ValidHash e a) (hal' : AlignedHash e' a') (V' : ValidHash e' a')
    (hr : Runs (h a.out a.inp a.inlen) e s r s1) (hr' : Runs (h a'.out a'.inp a'.inlen) e' s' r' s1')
    (hslack : v.Slack (bytesAt s a.inp a.inlen))
    (hin : bytesAt s' a'.inp a'.inlen = bytesAt s a.inp a.inlen ++ zeros v.slack) :
    bytesAt s1' a'.out 32 = bytesAt s1 a.out 32 := by
  obtain ⟨-, rfl⟩ := Runs.det hr (v.runs_hash .big hh hal V)
  obtain ⟨-, rfl⟩ := Runs.det hr' (v.runs_hash .big hh hal' V')
  have hl := v.length_hash .big
  rw [bytesAt_putBytes_same' _ _ _ (hl _), bytesAt_putBytes_same' _ _ _ (hl _), hin, v.hash_slack hslack]

/-- What can be appended to what. -/
theorem C52_slack (v : MixedA) (X : List Byte) : (v.Slack X ↔ X.length % 8 = 0 ∧ v ≠ .bi8 ∧ (∀ d, v = .a128Opt64 d → X ≠ [])) ∧
    (v.slack = 0 ↔ v = .bi8) := by
  cases v <;> simp [MixedA.Slack, MixedA.slack]

/-! ### Calls that meet the hypotheses

All memory is accessible and zero. -/

namespace Mixed

def env : Env := ⟨fun _ _ => true, fun _ _ => true, fun _ => 0, false⟩

/-- Encrypt 8 bytes with 8 bytes of associated data. -/
def enc : EncArgs := { Sample.enc with mlen := 8, adlen := 8 }

theorem validEnc : ValidEnc env enc where
  k := fun _ _ => rfl
  npub := fun _ _ => rfl
  ad := fun _ _ => rfl
  m := fun _ _ => rfl
  c := fun _ _ => ⟨rfl, rfl⟩
  clen := fun _ _ => ⟨rfl, rfl⟩
  adlen_lt := by decide
  mlen_lt := by decide
  c_m := by decide
  c_ad := by decide
  c_npub := by decide
  c_k := by decide
  clen_c := by decide
  clen_m := by decide
  clen_ad := by decide
  clen_npub := by decide
  clen_k := by decide

theorem limitsEnc (v : MixedA) : v.target.limits.Enc env enc :=
  Limits.enc_tolerant rfl (Nat.lt_trans (by decide) (Sample.limits _).1) (Nat.lt_trans (by decide) (Sample.limits _).1)
    fun _ _ => rfl

/-- Decrypt from object 9. -/
def dec (clen adlen : Nat) : DecArgs := { Sample.dec with c := ⟨9, 0⟩, clen := clen, adlen := adlen }

theorem validDec {clen adlen : Nat} (h1 : 16 ≤ clen) (h2 : clen < 2 ^ 64) (h3 : adlen < 2 ^ 64) : ValidDec env (dec clen adlen) where
  k := fun _ _ => rfl
  npub := fun _ _ => rfl
  ad := fun _ _ => rfl
  c := fun _ _ => rfl
  mlen := fun _ _ => ⟨rfl, rfl⟩
  adlen_lt := h3
  clen_lt := h2
  clen_ge := h1
  mlen_c := Or.inr (Or.inr (Or.inl (by decide : (8 : Nat) ≠ 9)))
  mlen_ad := Or.inr (Or.inr (Or.inl (by decide : (8 : Nat) ≠ 3)))
  mlen_npub := Or.inr (Or.inr (Or.inl (by decide : (8 : Nat) ≠ 4)))
  mlen_k := Or.inr (Or.inr (Or.inl (by decide : (8 : Nat) ≠ 5)))
  m := fun _ _ => ⟨rfl, rfl⟩
  m_c := Or.inr (Or.inl (by decide : (7 : Nat) ≠ 9))
  mlen_m := Or.inr (Or.inr (Or.inl (by decide : (8 : Nat) ≠ 7)))

theorem limitsDec (v : MixedA) {clen adlen : Nat} (h1 : clen ≤ 36) (h2 : adlen ≤ 20) : v.target.limits.Dec env (dec clen adlen) :=
  Limits.dec_tolerant rfl (Nat.lt_of_le_of_lt h2 (Sample.limits _).1)
    (Nat.lt_of_le_of_lt (show clen - 16 ≤ 20 by omega) (Sample.limits _).1) fun _ _ => rfl

/-- The encryption runs, and changes nothing but the ciphertext and its length. -/
theorem run (v : MixedA) : ∃ s1, Runs ((v.aead .big).encrypt enc) env zeroSt 0 s1 ∧
    ∀ b i, b ≠ 0 → b ≠ 1 → s1.mem b i = 0 := by
  obtain ⟨s1, h, -⟩ := Cipher.encrypts .big (v.isImpl .big) validEnc (limitsEnc v) (s := zeroSt)
  refine ⟨s1, h, fun b i h0 h1 => ?_⟩
  exact (enc_run v .big validEnc (limitsEnc v) h).2.2.2.2 b i (fun h => h1 h.1) (fun h => h0 h.1)

theorem bytesAt_zeros {s : St} {b n : Nat} (h : ∀ i, s.mem b i = 0) : bytesAt s ⟨b, 0⟩ n = zeros n := by
  simp only [bytesAt, zeros]
  exact List.ext_getElem (by simp) fun i _ _ => by simp [h]

theorem slack_le (v : MixedA) : v.slack ≤ 7 := by cases v <;> simp [MixedA.slack]

/-- What is decrypted: these bytes are in object 9. -/
def put (s1 : St) (X : List Byte) : St := putBytes s1 ⟨9, 0⟩ X

theorem put_zero {s1 : St} (h : ∀ b i, b ≠ 0 → b ≠ 1 → s1.mem b i = 0) (X : List Byte) {b n : Nat} (h0 : b ≠ 0) (h1 : b ≠ 1)
    (h9 : b ≠ 9) : bytesAt (put s1 X) ⟨b, 0⟩ n = zeros n := by
  refine bytesAt_zeros fun i => ?_
  rw [put, putBytes_frame rfl (fun hb => h9 hb.1), h b i h0 h1]

end Mixed

open Mixed in
/-- The forgery with longer associated data. -/
example (v : MixedA) (hv : v ≠ .bi8) : ∃ s1 s2 s3, Runs ((v.aead .big).encrypt enc) env zeroSt 0 s1 ∧
    bytesAt s2 (dec 24 (8 + v.slack)).c 24 = bytesAt s1 enc.c 24 ∧
    Runs ((v.aead .big).decrypt (dec 24 (8 + v.slack))) env s2 0 s3 := by
  obtain ⟨s1, h1, hz⟩ := run v
  have hsl := slack_le v
  have hs : v.Slack (bytesAt zeroSt enc.ad enc.adlen) := by
    refine ((C52_slack v _).1).2 ⟨by simp [enc], hv, fun _ _ h => ?_⟩
    exact absurd (congrArg List.length h) (by simp [enc])
  have hX : bytesAt (put s1 (bytesAt s1 enc.c 24)) ⟨9, 0⟩ 24 = bytesAt s1 enc.c 24 := bytesAt_putBytes_same' _ _ _ (by simp)
  obtain ⟨s3, h3, -⟩ := C52_not_ad v env env zeroSt s1 (put s1 (bytesAt s1 enc.c 24)) enc (dec 24 (8 + v.slack)) 0 validEnc
    (limitsEnc v) (validDec (by decide) (by decide) (by omega)) (limitsDec v (by decide) (by omega)) h1 hs
    ((put_zero hz _ (by decide) (by decide) (by decide)).trans (bytesAt_zeros fun _ => rfl).symm)
    ((put_zero hz _ (by decide) (by decide) (by decide)).trans (bytesAt_zeros fun _ => rfl).symm)
    ((put_zero hz _ (by decide) (by decide) (by decide)).trans (by
      rw [show bytesAt zeroSt enc.ad enc.adlen = zeros 8 from bytesAt_zeros fun _ => rfl]
      exact List.replicate_append_replicate.symm))
    rfl hX
  exact ⟨s1, _, s3, h1, hX, h3⟩

open Mixed in
/-- The forgery with a longer ciphertext. -/
example (v : MixedA) (hv : v ≠ .bi8) : ∃ s1 s2 s3, Runs ((v.aead .big).encrypt enc) env zeroSt 0 s1 ∧
    bytesAt s2 (dec (8 + v.slack + 16) 8).c (8 + v.slack + 16) = bytesAt s1 enc.c 8 ++ zeros v.slack ++ bytesAt s1 (enc.c + 8) 16 ∧
    Runs ((v.aead .big).decrypt (dec (8 + v.slack + 16) 8)) env s2 0 s3 := by
  obtain ⟨s1, h1, hz⟩ := run v
  have hsl := slack_le v
  have hs : v.Slack (bytesAt s1 enc.c enc.mlen) := by
    refine ((C52_slack v _).1).2 ⟨by simp [enc], hv, fun _ _ h => ?_⟩
    exact absurd (congrArg List.length h) (by simp [enc])
  have hX : bytesAt (put s1 (bytesAt s1 enc.c 8 ++ zeros v.slack ++ bytesAt s1 (enc.c + 8) 16)) ⟨9, 0⟩ (8 + v.slack + 16) =
      bytesAt s1 enc.c 8 ++ zeros v.slack ++ bytesAt s1 (enc.c + 8) 16 := bytesAt_putBytes_same' _ _ _ (by simp [zeros]; omega)
  obtain ⟨s3, h3, -⟩ := C52_not_ciphertext v env env zeroSt s1
    (put s1 (bytesAt s1 enc.c 8 ++ zeros v.slack ++ bytesAt s1 (enc.c + 8) 16)) enc (dec (8 + v.slack + 16) 8) 0 validEnc
    (limitsEnc v) (validDec (by omega) (by omega) (by decide)) (limitsDec v (by omega) (by decide)) h1 hs
    ((put_zero hz _ (by decide) (by decide) (by decide)).trans (bytesAt_zeros fun _ => rfl).symm)
    ((put_zero hz _ (by decide) (by decide) (by decide)).trans (bytesAt_zeros fun _ => rfl).symm)
    ((put_zero hz _ (by decide) (by decide) (by decide)).trans (bytesAt_zeros fun _ => rfl).symm)
    rfl hX
  exact ⟨s1, _, s3, h1, hX, h3⟩

open Mixed in
/-- Two inputs of `crypto_hash` with the same digest. -/
example : MixedA.bi32.Slack (bytesAt zeroSt ⟨2, 0⟩ 8) ∧
    bytesAt zeroSt ⟨2, 0⟩ 13 = bytesAt zeroSt ⟨2, 0⟩ 8 ++ zeros MixedA.bi32.slack ∧
    AlignedHash env ⟨⟨0, 0⟩, ⟨2, 0⟩, 8⟩ ∧ ValidHash env ⟨⟨0, 0⟩, ⟨2, 0⟩, 8⟩ ∧
    AlignedHash env ⟨⟨0, 0⟩, ⟨2, 0⟩, 13⟩ ∧ ValidHash env ⟨⟨0, 0⟩, ⟨2, 0⟩, 13⟩ :=
  ⟨⟨rfl, trivial⟩, rfl, ⟨.tolerant rfl .., .tolerant rfl ..⟩,
    { inp := fun _ _ => rfl, out := fun _ _ => ⟨rfl, rfl⟩, inlen_lt := by decide }, ⟨.tolerant rfl .., .tolerant rfl ..⟩,
    { inp := fun _ _ => rfl, out := fun _ _ => ⟨rfl, rfl⟩, inlen_lt := by decide }⟩

end Props
