import Verif.Spec.StreamKey
import Verif.Props.AvxArrays
import Verif.Props.KeRemains
import Verif.Props.RefArrays
import Verif.Props.Aead
/-!
# What can be done with the derived key that remains in the arrays (C51)
-/

namespace Props
open C Model Spec
open KeccakRef.In (Frame)

/-- After encryption the first bytes of `c` are the ciphertext. -/
theorem ciphertext_of {t : Target} {e : Env} {s s1 : St} {a : EncArgs} (V : ValidEnc e a) (L : t.limits.Enc e a)
    (h : Runs (t.aead.encrypt a) e s 0 s1) :
    bytesAt s1 a.c a.mlen = t.spec.enc (bytesAt s a.k 16) (bytesAt s a.npub 16) (bytesAt s a.m a.mlen) := by
  obtain ⟨s2, h2, hm⟩ := t.encryptOK e s a V L
  obtain ⟨_, rfl⟩ := h.det h2
  have hl : (t.spec.enc (bytesAt s a.k 16) (bytesAt s a.npub 16) (bytesAt s a.m a.mlen)).length = a.mlen := by simp
  have hp := bytesAt_putBytes_part (putBytes s a.clen (toLe64 (BitVec.ofNat 64 (a.mlen + 16)))) a.c
    (t.spec.encrypt (bytesAt s a.k 16) (bytesAt s a.npub 16) (bytesAt s a.ad a.adlen) (bytesAt s a.m a.mlen)) 0 a.mlen (by
      rw [Params.encrypt, List.length_append]; omega)
  rw [add_zero] at hp
  rw [bytesAt_congr hm, hp, List.drop_zero, Params.encrypt, List.take_append_of_le_length (by omega), List.take_of_length_le (by omega)]

/-- Whoever can read the array of `isap_enc` after encryption by isapa128v20/opt_64 gets the plaintext from the ciphertext and the nonce,
without the key. -/
theorem C51_state_plaintext_from_key (d : DataModel) (e : Env) (s s' : St) (a : EncArgs) (u v : Ptr) (V : ValidEnc e a)
    (L : (Target.a128Opt64 d).limits.Enc e a) (U : StateArray e a 40 u) (U' : StateArray e a 40 v) (hu : Aligned e 8 u 40)
    (hv : Aligned e 8 v 40) (hm : 0 < a.mlen) (huv : Disjoint u 40 v 40) (r : Int) (h : Runs ((opt64In d u v).encrypt a) e s r s') :
    isapA128.encFrom (bytesAt s' u 24) (bytesAt s a.npub 16) (bytesAt s' a.c a.mlen) = bytesAt s a.m a.mlen := by
  obtain ⟨s1, s2, h1, h2, ho⟩ := C51_state_encrypt_partial d e s a u v V L U U' hu hv
  rw [C51_key_remains d e s s' a u v V L U U' hu hv hm huv r h]
  obtain ⟨_, rfl⟩ := h.det h2
  rw [ho.bytes (U.c.mono (Nat.le_refl _) (Nat.le_add_right ..)) (U'.c.mono (Nat.le_refl _) (Nat.le_add_right ..)), ciphertext_of V L h1]
  exact Params.enc_enc _ _ _

/-- The same of the array `state_enc` of isapa128av20/avx_512. -/
theorem C51_avx_plaintext_from_key (d : DataModel) (e : Env) (s s' : St) (a : EncArgs) (u v : Ptr) (V : ValidEnc e a)
    (L : (Target.a128aAvx512 d).limits.Enc e a) (U : StateArray e a 40 u) (U' : StateArray e a 40 v) (hu : Aligned e 8 u 40)
    (hv : Aligned e 8 v 40) (huv : Disjoint u 40 v 40) (r : Int) (h : Runs (avxEncryptIn d u v a) e s r s') :
    isapA128a.encFrom (bytesAt s' u 24) (bytesAt s a.npub 16) (bytesAt s' a.c a.mlen) = bytesAt s a.m a.mlen := by
  obtain ⟨s1, s2, h1, h2, ho⟩ := C51_avx_encrypt_partial d e s a u v V L U U' hu hv
  rw [C51_avx_key_remains d e s s' a u v V L U U' hu hv huv r h]
  obtain ⟨_, rfl⟩ := h.det h2
  rw [ho.bytes (U.c.mono (Nat.le_refl _) (Nat.le_add_right ..)) (U'.c.mono (Nat.le_refl _) (Nat.le_add_right ..)), ciphertext_of V L h1]
  exact Params.enc_enc _ _ _

/-- The same of the array `ke` of isapa128v20/opt_32 and opt_32_armv67m, wherever it is. -/
theorem C51_ke_plaintext_from_key (arm : Bool) (e : Env) (s s' : St) (a : EncArgs) (p : Ptr) (V : ValidEnc e a)
    (L : (opt32 arm).limits.Enc e a) (U : StateArray e a 24 p) (hp : Aligned e 4 p 24) (hm : 0 < a.mlen) (r : Int)
    (h : Runs ((opt32In arm p).encrypt a) e s r s') :
    isapA128.encFrom (keyOf (bytesAt s' p 24)) (bytesAt s a.npub 16) (bytesAt s' a.c a.mlen) = bytesAt s a.m a.mlen := by
  obtain ⟨s1, s2, h1, h2, ho⟩ := C51_ke_encrypt_partial arm e s a p V L U hp
  rw [C51_ke_key_remains arm e s s' a p V L U hp hm r h]
  obtain ⟨_, rfl⟩ := h.det h2
  have hc := U.c.mono (Nat.le_refl _) (Nat.le_add_right a.mlen 16)
  have hs : (opt32 arm).spec = isapA128 := by cases arm <;> rfl
  rw [ho.bytes hc hc, ciphertext_of V L h1, hs]
  exact Params.enc_enc _ _ _

/-- The same of the Keccak reference, if the arrays of `isap_mac` have not been put in the same place. -/
theorem C51_kref_plaintext_from_key (x : Bool) (e : Env) (s s' : St) (a : EncArgs) (F : Frame) (V : ValidEnc e a)
    (L : (kRef x).limits.Enc e a) (U : KArrays e a F) (hal : ∀ u ∈ F.arrays, Aligned e 2 u 50) (hm : 0 < a.mlen)
    (d1 : Disjoint F.encRk 50 F.mac 50) (d2 : Disjoint F.encRk 50 F.macRk 50) (r : Int) (h : Runs ((kRefIn x F).encrypt a) e s r s') :
    (kPar x).encFrom (bytesAt s' F.encRk 34) (bytesAt s a.npub 16) (bytesAt s' a.c a.mlen) = bytesAt s a.m a.mlen := by
  obtain ⟨s1, s2, h1, h2, ho⟩ := C51_kref_encrypt_partial x e s a F V L U hal
  rw [C51_kref_key_remains x e s s' a F V L U hal hm d1 d2 r h]
  obtain ⟨_, rfl⟩ := h.det h2
  have hc : KeccakRef.In.Off F.arrays a.c a.mlen := fun u hu => (U.each u hu).c.mono (Nat.le_refl _) (Nat.le_add_right ..)
  have hs : (kRef x).spec = kPar x := by cases x <;> rfl
  rw [hc.bytes ho, ciphertext_of V L h1, hs]
  have hn : (kPar x).n - 16 = 34 := by cases x <;> rfl
  have he := Params.enc_eq_encFrom (kPar x) (bytesAt s a.k 16) (bytesAt s a.npub 16)
  rw [hn] at he
  exact (he _).symm.trans (Params.enc_enc _ _ _)

/-- After decryption by isapa128av20/avx_512 the derived key remains in the array `state` of `isap_enc`, wherever the other array is. -/
theorem C51_avx_key_remains_dec (d : DataModel) (e : Env) (s s' : St) (a : DecArgs) (u v : Ptr) (V : ValidDec e a)
    (L : (Target.a128aAvx512 d).limits.Dec e a) (U : StateArrayDec e a 40 u) (U' : StateArrayDec e a 40 v) (hu : Aligned e 8 u 40)
    (hv : Aligned e 8 v 40) (hm : 16 < a.clen) (h : Runs (avxDecryptIn d u v a) e s 0 s') :
    bytesAt s' u 24 = isapA128a.rk (bytesAt s a.k 16) (isapA128a.iv 3) (bytesAt s a.npub 16) 24 := by
  have L' : (⟨8, 8, d.ulong, id⟩ : Limits).Dec e a :=
    { k := L.k, npub := L.npub, ad := L.ad, c := L.c, m := L.m, over := L.over
      adlen_lt := Nat.lt_of_lt_of_le L.adlen_lt (Nat.min_le_right ..), clen_lt := Nat.lt_of_lt_of_le L.clen_lt (Nat.min_le_right ..) }
  have K := decryptArrOK (s := s) (A128.Avx.cfgOK d).isAscon.wf (fun _ _ => A128.Opt64.length_key (A128.Avx.cfgOK d)) (by decide)
    (A128.Opt64.encIn (v := v) (A128.Avx.cfgOK d) u) (A128.Opt64.macIn (u := u) (A128.Avx.cfgOK d) v) V.toValidDecIn L' U U' hu hv
  by_cases hacc : tagEq isapA128a (bytesAt s a.k 16) (bytesAt s a.npub 16) (bytesAt s a.ad a.adlen) (bytesAt s a.c (a.clen - 16))
      (bytesAt s (a.c + (a.clen - 16)) 16)
  · obtain ⟨s2, h2, _, hk⟩ := K.1 hacc V
    obtain ⟨_, rfl⟩ := h.det h2
    exact hk hm
  · obtain ⟨s2, h2, _⟩ := K.2 hacc
    exact absurd (h.det h2).1 (by decide)

/-! ### The hypotheses can be met -/

example (d : DataModel) : ∃ s', Runs ((opt64In d ⟨10, 0⟩ ⟨10, 40⟩).encrypt frameEnc) frameEnv Sample.st 0 s' ∧
    isapA128.encFrom (bytesAt s' ⟨10, 0⟩ 24) (bytesAt Sample.st ⟨4, 0⟩ 16) (bytesAt s' frameEnc.c frameEnc.mlen) =
      bytesAt Sample.st frameEnc.m frameEnc.mlen := by
  obtain ⟨_, s', _, h, _⟩ := C51_state_encrypt_partial d frameEnv Sample.st frameEnc ⟨10, 0⟩ ⟨10, 40⟩ frameEnc_valid (frameEnc_limits d)
    (frameEnc_state _ _ _ (by decide)) (frameEnc_state _ _ _ (by decide)) (by decide) (by decide)
  exact ⟨s', h, C51_state_plaintext_from_key d frameEnv Sample.st s' frameEnc ⟨10, 0⟩ ⟨10, 40⟩ frameEnc_valid (frameEnc_limits d)
    (frameEnc_state _ _ _ (by decide)) (frameEnc_state _ _ _ (by decide)) (by decide) (by decide) (by decide) (by decide) 0 h⟩

example (d : DataModel) : ∃ s', Runs (avxEncryptIn d ⟨10, 0⟩ ⟨10, 40⟩ frameEnc) frameEnv Sample.st 0 s' ∧
    isapA128a.encFrom (bytesAt s' ⟨10, 0⟩ 24) (bytesAt Sample.st ⟨4, 0⟩ 16) (bytesAt s' frameEnc.c frameEnc.mlen) =
      bytesAt Sample.st frameEnc.m frameEnc.mlen := by
  obtain ⟨_, s', _, h, _⟩ := C51_avx_encrypt_partial d frameEnv Sample.st frameEnc ⟨10, 0⟩ ⟨10, 40⟩ frameEnc_valid (frameEnc_avx d)
    (frameEnc_state _ _ _ (by decide)) (frameEnc_state _ _ _ (by decide)) (by decide) (by decide)
  exact ⟨s', h, C51_avx_plaintext_from_key d frameEnv Sample.st s' frameEnc ⟨10, 0⟩ ⟨10, 40⟩ frameEnc_valid (frameEnc_avx d)
    (frameEnc_state _ _ _ (by decide)) (frameEnc_state _ _ _ (by decide)) (by decide) (by decide) (by decide) 0 h⟩

example : ∃ s', Runs ((opt32In true ⟨10, 4⟩).encrypt frameEnc) frameEnv Sample.st 0 s' ∧
    isapA128.encFrom (keyOf (bytesAt s' ⟨10, 4⟩ 24)) (bytesAt Sample.st ⟨4, 0⟩ 16) (bytesAt s' frameEnc.c frameEnc.mlen) =
      bytesAt Sample.st frameEnc.m frameEnc.mlen := by
  obtain ⟨_, s', _, h, _⟩ := C51_ke_encrypt_partial true frameEnv Sample.st frameEnc ⟨10, 4⟩ frameEnc_valid (frameEnc_limits .lp64)
    (frameEnc_state _ _ _ (by decide)) (by decide)
  exact ⟨s', h, C51_ke_plaintext_from_key true frameEnv Sample.st s' frameEnc ⟨10, 4⟩ frameEnc_valid (frameEnc_limits .lp64)
    (frameEnc_state _ _ _ (by decide)) (by decide) (by decide) 0 h⟩

example (x : Bool) : ∃ s', Runs ((kRefIn x ⟨⟨10, 0⟩, ⟨10, 50⟩, ⟨10, 100⟩, ⟨10, 150⟩⟩).encrypt frameEnc) frameEnv Sample.st 0 s' ∧
    (kPar x).encFrom (bytesAt s' ((⟨⟨10, 0⟩, ⟨10, 50⟩, ⟨10, 100⟩, ⟨10, 150⟩⟩ : Frame).encRk) 34) (bytesAt Sample.st ⟨4, 0⟩ 16)
      (bytesAt s' frameEnc.c frameEnc.mlen) = bytesAt Sample.st frameEnc.m frameEnc.mlen := by
  have U : KArrays frameEnv frameEnc ⟨⟨10, 0⟩, ⟨10, 50⟩, ⟨10, 100⟩, ⟨10, 150⟩⟩ :=
    ⟨fun u hu => frameEnc_state 50 u.blk u.off (by revert u; decide), by decide, by decide⟩
  obtain ⟨_, s', _, h, _⟩ := C51_kref_encrypt_partial x frameEnv Sample.st frameEnc _ frameEnc_valid (frameEnc_kref x) U (by decide)
  exact ⟨s', h, C51_kref_plaintext_from_key x frameEnv Sample.st s' frameEnc _ frameEnc_valid (frameEnc_kref x) U (by decide) (by decide)
    (by decide) (by decide) 0 h⟩

/-- The sample call, with the right tag. -/
example (d : DataModel) : 16 < Sample.dec.clen ∧
    ∃ s s', Runs (avxDecryptIn d ⟨10, 0⟩ ⟨10, 0⟩ Sample.dec) frameEnv s 0 s' ∧ bytesAt s' ⟨10, 0⟩ 24 =
      isapA128a.rk (bytesAt s ⟨5, 0⟩ 16) (isapA128a.iv 3) (bytesAt s ⟨4, 0⟩ 16) 24 := by
  let T := isapA128a.mac (bytesAt Sample.st ⟨5, 0⟩ 16) (bytesAt Sample.st ⟨4, 0⟩ 16) (bytesAt Sample.st ⟨3, 0⟩ 20)
    (bytesAt Sample.st ⟨0, 0⟩ 3)
  have hT : T.length = 16 := Params.length_mac (A128.Avx.cfgOK d).isAscon.wf _ _ (by simp) (by simp)
  have L := frame_limits (.a128aAvx512 d) (Nat.succ_ne_zero _)
  let s := putBytes Sample.st ⟨0, 3⟩ T
  obtain ⟨r, s1, s2, h1, h2, _⟩ := C51_state_avx_partial d frameEnv s Sample.dec ⟨10, 0⟩ ⟨10, 0⟩ frame_valid L
    (frame_state 40 10 0 (by decide)) (frame_state 40 10 0 (by decide)) (by decide) (by decide)
  have hb : ∀ b n, b ≠ 0 ∨ n ≤ 3 → bytesAt s ⟨b, 0⟩ n = bytesAt Sample.st ⟨b, 0⟩ n := fun b n hb =>
    bytesAt_putBytes_disjoint _ _ _ _ _ (by unfold Disjoint; simp only; omega)
  have hacc : r = 0 := by
    obtain ⟨r', s3, hr, _, h0⟩ := C03_accepts_iff_tag_partial (.a128aAvx512 d) rfl rfl frameEnv s Sample.dec frame_valid L
    obtain ⟨rfl, _⟩ := hr.det h1
    refine h0.2 ?_
    show bytesAt s ⟨0, 3⟩ 16 = isapA128a.mac (bytesAt s ⟨5, 0⟩ 16) (bytesAt s ⟨4, 0⟩ 16) (bytesAt s ⟨3, 0⟩ 20) (bytesAt s ⟨0, 0⟩ 3)
    rw [hb 5 _ (by decide), hb 4 _ (by decide), hb 3 _ (by decide), hb 0 3 (by decide)]
    exact bytesAt_putBytes_same' _ _ _ hT
  subst hacc
  exact ⟨by decide, s, s2, h2, C51_avx_key_remains_dec d frameEnv s s2 Sample.dec _ _ frame_valid L (frame_state 40 10 0 (by decide))
    (frame_state 40 10 0 (by decide)) (by decide) (by decide) (by decide) h2⟩

end Props
