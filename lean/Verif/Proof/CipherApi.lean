import Verif.Proof.ByteOrder
import Verif.Proof.Stream
/-!
# `crypto_aead.c` with any two functions in place of ISAP

As in `Proof/ByteOrder.lean`, for implementations that compute something else than ISAP with some permutation.
-/

namespace Model.Cipher
open C

variable {F : Cipher} {L : Limits} {I : Model.Impl}

/-- Ciphertext and tag. -/
def out (F : Cipher) (K N A M : List Byte) : List Byte := F.enc K N M ++ F.mac K N A (F.enc K N M)

theorem encrypts (o : ByteOrder) (H : F.Impl L I) {e : Env} {s : St} {a : EncArgs} (V : ValidEnc e a) (B : L.Enc e a) :
    ∃ s', Runs ((I.aeadIn o).encrypt a) e s 0 s' ∧
      s'.mem = (putBytes (putBytes s a.clen (bytes o (BitVec.ofNat 64 (a.mlen + 16)))) a.c
        (F.out (bytesAt s a.k 16) (bytesAt s a.npub 16) (bytesAt s a.ad a.adlen) (bytesAt s a.m a.mlen))).mem := by
  generalize hs1 : putBytes s a.clen (bytes o (BitVec.ofNat 64 (a.mlen + 16))) = s1
  have b1 : ∀ p n, Disjoint a.clen 8 p n → bytesAt s1 p n = bytesAt s p n := by
    intro p n h
    rw [← hs1, bytesAt_putBytes_disjoint _ _ _ _ _ (by simpa using h.symm)]
  have hk := b1 _ _ V.clen_k
  have hN := b1 _ _ V.clen_npub
  have hA := b1 _ _ V.clen_ad
  have hM := b1 _ _ V.clen_m
  generalize hX : F.enc (bytesAt s a.k 16) (bytesAt s a.npub 16) (bytesAt s a.m a.mlen) = X
  have hXl : X.length = a.mlen := by rw [← hX, H.ok.enc_len]; simp
  -- state after the optional encryption
  have b2 : ∀ p n, Disjoint a.c (a.mlen + 16) p n → bytesAt (putBytes s1 a.c X) p n = bytesAt s1 p n := by
    intro p n h
    exact bytesAt_putBytes_disjoint _ _ _ _ _ (h.symm.mono (Nat.le_refl _) (by omega))
  have step : ∃ s', Runs (do
      let tag ← I.mac a.k a.npub a.ad a.adlen a.c a.mlen
      storeTag I.tagAlign (a.c + a.mlen) tag
      pure (0 : Int)) e (putBytes s1 a.c X) 0 s' ∧ s'.mem = (putBytes s1 a.c (F.out (bytesAt s a.k 16)
        (bytesAt s a.npub 16) (bytesAt s a.ad a.adlen) (bytesAt s a.m a.mlen))).mem := by
    have hm := H.mac e (putBytes s1 a.c X) a.k a.npub a.ad a.adlen a.c a.mlen B.k B.npub B.ad B.c B.adlen_lt
      B.mlen_lt V.k V.npub V.ad (V.c.readable.mono (by omega))
    rw [b2 _ _ V.c_k, b2 _ _ V.c_npub, b2 _ _ V.c_ad, hk, hN, hA, ← hXl, bytesAt_putBytes_same, hXl] at hm
    have hT := H.ok.mac_len (bytesAt s a.k 16) (bytesAt s a.npub 16) (bytesAt s a.ad a.adlen) X
    refine ⟨_, runs_bind hm (runs_bind (runs_storeTag (H.tag ▸ B.tag) H.dvd hT (V.c.add (by omega))) (runs_pure _ _ _)), ?_⟩
    have := putBytes_append s1 a.c X (F.mac (bytesAt s a.k 16) (bytesAt s a.npub 16) (bytesAt s a.ad a.adlen) X)
    rw [hXl] at this
    rw [this]
    simp only [out, hX]
  obtain ⟨s', hr, hmem⟩ := step
  refine ⟨s', ?_, hmem⟩
  refine runs_bind (runs_storeLenIn V.clen) ?_
  rw [hs1]
  refine runs_bind (a := ()) (s' := putBytes s1 a.c X) ?_ hr
  by_cases h0 : a.mlen > 0
  · have he := H.enc e s1 a.k a.npub a.m a.mlen a.c B.k B.npub B.m B.c B.mlen_lt V.k V.npub V.m (V.c.mono (by omega)) V.c_m
    rw [hk, hN, hM, hX] at he
    exact runs_ifThen_true h0 he
  · have : X = [] := by apply List.length_eq_zero_iff.1; omega
    rw [this, putBytes_nil]
    exact runs_ifThen_false h0

theorem decrypts (o : ByteOrder) (H : F.Impl L I) {e : Env} {s : St} {a : DecArgs} (V : ValidDecIn e a) (B : L.Dec e a) :
    (bytesAt s (a.c + (a.clen - 16)) 16 = F.mac (bytesAt s a.k 16) (bytesAt s a.npub 16) (bytesAt s a.ad a.adlen)
        (bytesAt s a.c (a.clen - 16)) → ValidDec e a →
      ∃ s', Runs ((I.aeadIn o).decrypt a) e s 0 s' ∧
        s'.mem = (putBytes (putBytes s a.mlen (bytes o (BitVec.ofNat 64 (a.clen - 16)))) a.m
          (F.enc (bytesAt s a.k 16) (bytesAt s a.npub 16) (bytesAt s a.c (a.clen - 16)))).mem) ∧
    (bytesAt s (a.c + (a.clen - 16)) 16 ≠ F.mac (bytesAt s a.k 16) (bytesAt s a.npub 16) (bytesAt s a.ad a.adlen)
        (bytesAt s a.c (a.clen - 16)) →
      ∃ s', Runs ((I.aeadIn o).decrypt a) e s (-1) s' ∧
        s'.mem = (putBytes s a.mlen (bytes o (BitVec.ofNat 64 (a.clen - 16)))).mem) := by
  obtain ⟨Bc, Bm, Blt⟩ := And.intro B.c (And.intro B.m B.clen_lt)
  generalize hl : a.clen - 16 = l at *
  have hge := V.clen_ge
  have hlt := V.clen_lt
  have hlcell : BitVec.ofNat 64 (a.clen + (2 ^ 64 - 16)) = BitVec.ofNat 64 l := by
    apply BitVec.eq_of_toNat_eq
    simp only [BitVec.toNat_ofNat]
    rw [show a.clen + (2 ^ 64 - 16) = l + 2 ^ 64 by omega, Nat.add_mod_right]
  generalize hs1 : putBytes s a.mlen (bytes o (BitVec.ofNat 64 l)) = s1
  have hcell : bytesAt s1 a.mlen 8 = bytes o (BitVec.ofNat 64 l) := by
    rw [← hs1, bytesAt_putBytes_same' _ _ _ (by simp)]
  have b1 : ∀ p n, Disjoint a.mlen 8 p n → bytesAt s1 p n = bytesAt s p n := by
    intro p n h
    rw [← hs1, bytesAt_putBytes_disjoint _ _ _ _ _ (by simpa using h.symm)]
  have hk := b1 _ _ V.mlen_k
  have hN := b1 _ _ V.mlen_npub
  have hA := b1 _ _ V.mlen_ad
  have hC : bytesAt s1 a.c l = bytesAt s a.c l := b1 _ _ (V.mlen_c.mono (Nat.le_refl _) (by omega))
  have hT : bytesAt s1 (a.c + l) 16 = bytesAt s (a.c + l) 16 := by
    apply b1
    have := V.mlen_c
    unfold Disjoint at *
    simp only [add_blk, add_off]; omega
  have hloadLen : Runs (loadLenIn o a.mlen) e s1 l s1 := runs_loadLenIn V.mlen (by omega) hcell rfl
  have hm := H.mac e s1 a.k a.npub a.ad a.adlen a.c l B.k B.npub B.ad Bc B.adlen_lt Blt V.k V.npub V.ad
      (V.c.mono (by omega))
  rw [hk, hN, hA, hC] at hm
  generalize hmac' : F.mac (bytesAt s a.k 16) (bytesAt s a.npub 16) (bytesAt s a.ad a.adlen) (bytesAt s a.c l) = T at *
  have hTl : T.length = 16 := by rw [← hmac']; exact H.ok.mac_len ..
  generalize hT' : bytesAt s (a.c + l) 16 = T' at *
  have hTl' : T'.length = 16 := by rw [← hT']; simp
  have common : ∀ (r : Int) (sf : St),
      Runs (do
        let ok ← branch (decide ((List.range 16).foldl (fun cnt i => cnt + if T.getD i 0 = T'.getD i 0 then 1 else 0) 0 = 16))
        if ok then
          let l ← loadLenIn o a.mlen
          ifThen (l > 0) do
            let l ← loadLenIn o a.mlen
            I.enc a.k a.npub a.c l a.m
          pure 0
        else
          pure (-1)) e s1 r sf → Runs ((I.aeadIn o).decrypt a) e s r sf := by
    intro r sf h
    refine runs_bind (runs_storeLenIn V.mlen) ?_
    rw [hlcell, hs1]
    refine runs_bind hloadLen (runs_bind hm (runs_bind ?_ h))
    refine runs_forN_fold 16 0 0 (g := fun i cnt => cnt + if T.getD i 0 = T'.getD i 0 then 1 else 0) ?_
    intro j hj x
    rw [Nat.zero_add]
    refine runs_bind hloadLen ?_
    have hb := runs_load8_at (e := e) (s := s1) (p := a.c + l) (n := 16) (i := j) (V.c.add (by omega)) hj
    rw [hT, add_add] at hb
    exact runs_bind hb (runs_pure _ _ _)
  have hcount := count_eq T T' 16 (by omega) (by omega)
  rw [List.take_of_length_le (by omega), List.take_of_length_le (by omega)] at hcount
  constructor
  · intro hacc V'
    refine ⟨_, common 0 _ ?_, rfl⟩
    refine runs_if_true (hcount.2.2 hacc.symm) ?_
    refine runs_bind hloadLen ?_
    refine runs_bind (a := ()) (s' := putBytes s1 a.m (F.enc (bytesAt s a.k 16) (bytesAt s a.npub 16) (bytesAt s a.c l))) ?_
      (runs_pure _ _ _)
    by_cases h0 : l > 0
    · have he := H.enc e s1 a.k a.npub a.c l a.m B.k B.npub Bc Bm Blt V.k V.npub (V.c.mono (by omega)) (by rw [← hl]; exact V'.m)
        (by rw [← hl]; exact V'.m_c)
      rw [hk, hN, hC] at he
      exact runs_ifThen_true h0 (runs_bind hloadLen he)
    · have h0' : l = 0 := by omega
      have : F.enc (bytesAt s a.k 16) (bytesAt s a.npub 16) (bytesAt s a.c l) = [] := by
        apply List.length_eq_zero_iff.1; rw [H.ok.enc_len]; simp [h0']
      rw [this, putBytes_nil]
      exact runs_ifThen_false h0
  · intro hacc
    refine ⟨_, common (-1) _ ?_, rfl⟩
    exact runs_if_false (fun h => hacc (hcount.2.1 h).symm) (runs_pure _ _ _)

end Model.Cipher
