import Verif.Props.StateArrays
/-!
# What the array `ke` of isapa128v20/opt_32 contains after the call (C51)
-/

namespace Props
open C Model Spec

/-- The 32-bit word at `i` in an array of bytes, little-endian. -/
def word32 (bs : List Byte) (i : Nat) : BitVec 32 := (le64 ((bs.drop i).take 4)).setWidth 32

/-- The number whose bits at odd places are those of `o` and whose bits at even places are those of `e`. -/
def interleave (o e : BitVec 32) : BitVec 64 :=
  ofBits 64 fun i => if i % 2 = 1 then o.getLsbD (i / 2) else e.getLsbD (i / 2)

/-- The 24 bytes of a key, from an array that has its three lanes separated into odd and even bits. -/
def keyOf (ke : List Byte) : List Byte :=
  be64 (interleave (word32 ke 0) (word32 ke 4)) ++ be64 (interleave (word32 ke 8) (word32 ke 12)) ++
    be64 (interleave (word32 ke 16) (word32 ke 20))

open A128.Opt32 (le32b keBytes φ PQ)

theorem interleave_φ (x : BitVec 64) : interleave (Opt.Bi32.w1 (φ x)) (Opt.Bi32.w0 (φ x)) = x := by
  apply BitVec.eq_of_getLsbD_eq
  intro i hi
  rw [interleave, getLsbD_ofBits]
  simp only [hi, decide_true, Bool.true_and]
  by_cases h : i % 2 = 1
  · rw [if_pos h]
    simp only [Opt.Bi32.w1, BitVec.getLsbD_setWidth, BitVec.getLsbD_ushiftRight]
    rw [φ, Opt.Bi32.φ, Bits.getLsbD_perm _ _ (by omega), if_neg (by omega), show 2 * (32 + i / 2 - 32) + 1 = i by omega]
    simp [show i / 2 < 32 by omega]
  · rw [if_neg h]
    simp only [Opt.Bi32.w0, BitVec.getLsbD_setWidth]
    rw [φ, Opt.Bi32.φ, Bits.getLsbD_perm _ _ (by omega), if_pos (by omega), show 2 * (i / 2) = i by omega]
    simp [show i / 2 < 32 by omega]

theorem word32_append (A B : List Byte) (i : Nat) (h : A.length ≤ i) : word32 (A ++ B) i = word32 B (i - A.length) := by
  rw [word32, word32, List.drop_append, List.drop_of_length_le h, List.nil_append]

theorem word32_le32b (x : BitVec 32) (B : List Byte) : word32 (le32b x ++ B) 0 = x := by
  rw [word32, List.drop_zero, List.take_append_of_le_length (by simp), List.take_of_length_le (by simp), A128.Opt32.le64_le32b]

theorem keyOf_keBytes (R : Opt.State) : keyOf (keBytes (Opt.rep φ R)) = be64 R.x0 ++ be64 R.x1 ++ be64 R.x2 := by
  have h : ∀ a b c d f g : BitVec 32, keyOf (le32b a ++ le32b b ++ le32b c ++ le32b d ++ le32b f ++ le32b g) =
      be64 (interleave a b) ++ be64 (interleave c d) ++ be64 (interleave f g) := by
    intro a b c d f g
    simp only [keyOf, List.append_assoc]
    have n : ∀ (x : BitVec 32) (B : List Byte) (i : Nat), word32 (le32b x ++ B) (i + 4) = word32 B i := by
      intro x B i
      rw [word32_append _ _ _ (by simp), A128.Opt32.length_le32b, Nat.add_sub_cancel]
    have g0 : word32 (le32b g) 0 = g := by
      have := word32_le32b g []
      rwa [List.append_nil] at this
    rw [n a _ 0, n a _ 4, n a _ 8, n a _ 12, n a _ 16, n b _ 0, n b _ 4, n b _ 8, n b _ 12, n c _ 0, n c _ 4, n c _ 8, n d _ 0, n d _ 4,
      n f _ 0]
    simp only [word32_le32b, g0]
  rw [keBytes, h]
  simp only [Opt.rep, interleave_φ]

theorem keRemains {D : A128.Opt32.Prims} {q : Nat → Opt.State → Opt.State} (O : A128.Opt32.PermOK D q) {P : Params}
    (hP : PQ q = P) {e : Env} {s s' : St} {a : EncArgs} {p : Ptr} (V : ValidEnc e a) (L : Limits.byWordsTag.Enc e a)
    (U : StateArray e a 24 p) (hp : Aligned e 4 p 24) (hm : 0 < a.mlen) {r : Int}
    (h : Runs ((A128.Opt32.implIn D p).aead.encrypt a) e s r s') :
    keyOf (bytesAt s' p 24) = P.rk (bytesAt s a.k 16) (P.iv 3) (bytesAt s a.npub 16) 24 := by
  subst hP
  generalize hs1 : putBytes s a.clen (toLe64 (BitVec.ofNat 64 (a.mlen + 16))) = s1
  have b1 : ∀ p n, Disjoint a.clen 8 p n → bytesAt s1 p n = bytesAt s p n := fun p n h => hs1 ▸ bytesAt_len h
  obtain ⟨_, _, hlen, h⟩ := runs_bind_inv h
  obtain ⟨_, rfl⟩ := hlen.det (runs_storeLen V.clen)
  rw [hs1] at h
  obtain ⟨_, s2, henc, h⟩ := runs_bind_inv h
  have he := A128.Opt32.encIn O p e s1 a.k a.npub a.m a.mlen a.c L.k L.npub L.m L.c L.mlen_lt V.k V.npub V.m (V.c.mono (by omega)) V.c_m hp
    U.wr U.k U.npub U.m
  obtain ⟨_, h2⟩ := henc.det (runs_ifThen_true hm he)
  obtain ⟨tag, s3, hmac, h3⟩ := runs_bind_inv h
  have hm1 := A128.Opt32.macOK O e s2 a.k a.npub a.ad a.adlen a.c a.mlen L.k L.npub L.ad L.c L.adlen_lt L.mlen_lt V.k V.npub V.ad
    (V.c.readable.mono (Nat.le_add_right ..)) V.ad (V.c.readable.mono (Nat.le_add_right ..))
  obtain ⟨ht, rfl⟩ := hmac.det hm1
  have hT := Spec.Params.length_mac A128.Opt32.isAsconQ.wf (P := PQ q) (K := bytesAt s3 a.k 16) (N := bytesAt s3 a.npub 16)
    (bytesAt s3 a.ad a.adlen) (bytesAt s3 a.c a.mlen) (by simp) (by simp)
  rw [← ht] at hT
  have hst : Runs (do storeTag 8 (a.c + a.mlen) tag; pure (0 : Int)) e s3 0 _ :=
    runs_bind (runs_storeTag L.tag (by decide) hT (V.c.add (Nat.le_refl _))) (runs_pure _ _ _)
  obtain ⟨_, rfl⟩ := h3.det hst
  have hEl : ∀ R, (keBytes R).length = 24 := fun R => by simp [keBytes]
  have hXl : ((PQ q).enc (bytesAt s1 a.k 16) (bytesAt s1 a.npub 16) (bytesAt s1 a.m a.mlen)).length = a.mlen := by simp
  rw [bytesAt_putBytes_disjoint _ _ _ _ _ (by rw [hT]; exact disjoint_suffix U.c (Nat.le_refl _)), h2,
    bytesAt_putBytes_disjoint _ _ _ _ _ (by rw [hXl]; exact U.c.mono (Nat.le_refl _) (by omega)),
    bytesAt_putBytes_same' _ _ _ (hEl _), b1 _ _ V.clen_k, b1 _ _ V.clen_npub, keyOf_keBytes,
    A128.Opt32.isAsconQ.rk_words 3 24 (by simp) (by simp), Spec.Ascon.take24]

theorem keRemainsDec {D : A128.Opt32.Prims} {q : Nat → Opt.State → Opt.State} (O : A128.Opt32.PermOK D q) {P : Params}
    (hP : PQ q = P) {e : Env} {s s' : St} {a : DecArgs} {p : Ptr} (V : ValidDec e a) (L : Limits.byWordsTag.Dec e a)
    (U : StateArrayDec e a 24 p) (hp : Aligned e 4 p 24) (hm : 16 < a.clen)
    (h : Runs ((A128.Opt32.implIn D p).aead.decrypt a) e s 0 s') :
    keyOf (bytesAt s' p 24) = P.rk (bytesAt s a.k 16) (P.iv 3) (bytesAt s a.npub 16) 24 := by
  subst hP
  have K := decryptArrOK (s := s) A128.Opt32.isAsconQ.wf (fun _ _ _ _ => by simp [A128.Opt32.keBytes]) (by decide)
    (A128.Opt32.encIn O p) (A128.Opt32.macIn O p p) V.toValidDecIn L U U hp hp
  by_cases hacc : tagEq (PQ q) (bytesAt s a.k 16) (bytesAt s a.npub 16) (bytesAt s a.ad a.adlen) (bytesAt s a.c (a.clen - 16))
      (bytesAt s (a.c + (a.clen - 16)) 16)
  · obtain ⟨s2, h2, _, hk⟩ := K.1 hacc V
    obtain ⟨_, rfl⟩ := h.det h2
    rw [hk hm, keyOf_keBytes, A128.Opt32.isAsconQ.rk_words 3 24 (by simp) (by simp), Spec.Ascon.take24]
  · obtain ⟨s2, h2, _⟩ := K.2 hacc
    exact absurd (h.det h2).1 (by decide)

/-- Nothing clears `ke`: after encryption the derived key of the stream cipher remains in the memory of the function, its odd and even
bits separated. -/
theorem C51_ke_key_remains (arm : Bool) (e : Env) (s s' : St) (a : EncArgs) (p : Ptr) (V : ValidEnc e a)
    (L : (opt32 arm).limits.Enc e a) (U : StateArray e a 24 p) (hp : Aligned e 4 p 24) (hm : 0 < a.mlen) (r : Int)
    (h : Runs ((opt32In arm p).encrypt a) e s r s') :
    keyOf (bytesAt s' p 24) = isapA128.rk (bytesAt s a.k 16) (isapA128.iv 3) (bytesAt s a.npub 16) 24 := by
  cases arm with
  | false => exact keRemains A128.Opt32.permOK (P := isapA128) rfl V L U hp hm h
  | true => exact keRemains A128.Opt32.permOKArm (P := isapA128) rfl V L U hp hm h

/-- The same after decryption. -/
theorem C51_ke_key_remains_dec (arm : Bool) (e : Env) (s s' : St) (a : DecArgs) (p : Ptr) (V : ValidDec e a)
    (L : (opt32 arm).limits.Dec e a) (U : StateArrayDec e a 24 p) (hp : Aligned e 4 p 24) (hm : 16 < a.clen)
    (h : Runs ((opt32In arm p).decrypt a) e s 0 s') :
    keyOf (bytesAt s' p 24) = isapA128.rk (bytesAt s a.k 16) (isapA128.iv 3) (bytesAt s a.npub 16) 24 := by
  cases arm with
  | false => exact keRemainsDec A128.Opt32.permOK (P := isapA128) rfl V L U hp hm h
  | true => exact keRemainsDec A128.Opt32.permOKArm (P := isapA128) rfl V L U hp hm h

/-! ### The hypotheses can be met, and a test of `interleave` -/

example : ∃ s', Runs ((opt32In true ⟨10, 4⟩).encrypt frameEnc) frameEnv Sample.st 0 s' ∧
    keyOf (bytesAt s' ⟨10, 4⟩ 24) = isapA128.rk (bytesAt Sample.st ⟨5, 0⟩ 16) (isapA128.iv 3) (bytesAt Sample.st ⟨4, 0⟩ 16) 24 := by
  obtain ⟨_, s', _, h, _⟩ := C51_ke_encrypt_partial true frameEnv Sample.st frameEnc ⟨10, 4⟩ frameEnc_valid (frameEnc_limits .lp64)
    (frameEnc_state _ _ _ (by decide)) (by decide)
  exact ⟨s', h, C51_ke_key_remains true frameEnv Sample.st s' frameEnc ⟨10, 4⟩ frameEnc_valid (frameEnc_limits .lp64)
    (frameEnc_state _ _ _ (by decide)) (by decide) (by decide) 0 h⟩

example : interleave 0b11#32 0b01#32 = 0b1011#64 := by decide +kernel

end Props
