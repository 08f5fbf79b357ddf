import Verif.Model.ByteOrder
import Verif.Proof.Targets
/-!
# `crypto_aead.c` on platforms with either byte order
-/

namespace C

@[simp] theorem length_bytes (o : ByteOrder) (x : BitVec 64) : (bytes o x).length = 8 := by
  cases o <;> simp [bytes, toLe64]

theorem word_bytes (o : ByteOrder) (x : BitVec 64) : word o (bytes o x) = x := by
  cases o with
  | little => exact le64_toLe64 x
  | big =>
    have h : word .big (bytes .big x) = le64 (bytes .big x).reverse := rfl
    have h2 : (bytes .big x).reverse = toLe64 x := rfl
    rw [h, h2, le64_toLe64]

end C

namespace Model
open C

/-- `crypto_aead_encrypt` does what it should, where the length is stored in byte order `o`. -/
def EncryptInOK (o : ByteOrder) (P : Spec.Params) (L : Limits) (f : EncArgs → CM Int) : Prop :=
  ∀ (e : Env) (s : St) (a : EncArgs), ValidEnc e a → L.Enc e a →
    ∃ s', Runs (f a) e s 0 s' ∧
      s'.mem = (putBytes (putBytes s a.clen (bytes o (BitVec.ofNat 64 (a.mlen + 16)))) a.c
        (P.encrypt (bytesAt s a.k 16) (bytesAt s a.npub 16) (bytesAt s a.ad a.adlen) (bytesAt s a.m a.mlen))).mem

/-- `crypto_aead_decrypt` does what it should, where the length is stored in byte order `o`. -/
def DecryptInOK (o : ByteOrder) (P : Spec.Params) (L : Limits) (acc : (K N A C T : List Byte) → Prop) (f : DecArgs → CM Int) : Prop :=
  ∀ (e : Env) (s : St) (a : DecArgs), ValidDecIn e a → L.Dec e a →
    (acc (bytesAt s a.k 16) (bytesAt s a.npub 16) (bytesAt s a.ad a.adlen) (bytesAt s a.c (a.clen - 16))
        (bytesAt s (a.c + (a.clen - 16)) 16) → ValidDec e a →
      ∃ s', Runs (f a) e s 0 s' ∧
        s'.mem = (putBytes (putBytes s a.mlen (bytes o (BitVec.ofNat 64 (a.clen - 16)))) a.m
          (P.enc (bytesAt s a.k 16) (bytesAt s a.npub 16) (bytesAt s a.c (a.clen - 16)))).mem) ∧
    (¬ acc (bytesAt s a.k 16) (bytesAt s a.npub 16) (bytesAt s a.ad a.adlen) (bytesAt s a.c (a.clen - 16))
        (bytesAt s (a.c + (a.clen - 16)) 16) →
      ∃ s', Runs (f a) e s (-1) s' ∧
        s'.mem = (putBytes s a.mlen (bytes o (BitVec.ofNat 64 (a.clen - 16)))).mem)

theorem runs_storeLenIn {o : ByteOrder} {e : Env} {s : St} {p : Ptr} {n : Nat} (h : Writable e p 8) :
    Runs (storeLenIn o p n) e s () (putBytes s p (bytes o (BitVec.ofNat 64 n))) :=
  runs_store (aligned_one ..) (by simpa using h) (by simp)

theorem runs_loadLenIn {o : ByteOrder} {e : Env} {s t : St} {p : Ptr} {n : Nat} (h : Writable e p 8) (hn : n < 2 ^ 64)
    (hb : bytesAt t p 8 = bytes o (BitVec.ofNat 64 n)) (hs : s = t) : Runs (loadLenIn o p) e s n s := by
  subst hs
  refine runs_eq (runs_bind (runs_load (aligned_one ..) h.readable (by decide)) (runs_pure _ _ _)) ?_
  rw [hb, word_bytes]
  simp [BitVec.toNat_ofNat, Nat.mod_eq_of_lt hn]

theorem encryptInOK (o : ByteOrder) {P : Spec.Params} (W : P.Wf) {L : Limits} {I : Impl} (hext : ∀ n, L.ext n ≤ n + 16)
    (hmac : MacMemOK P L I.mac) (henc : EncOK P L I.enc) (htag : L.tal = I.tagAlign) (hd : I.tagAlign ∣ 16) :
    EncryptInOK o P L (I.aeadIn o).encrypt := by
  intro e s a V B
  generalize hs1 : putBytes s a.clen (bytes o (BitVec.ofNat 64 (a.mlen + 16))) = s1
  have b1 : ∀ p n, Disjoint a.clen 8 p n → bytesAt s1 p n = bytesAt s p n := by
    intro p n h
    rw [← hs1, bytesAt_putBytes_disjoint _ _ _ _ _ (by simpa using h.symm)]
  have hk := b1 _ _ V.clen_k
  have hN := b1 _ _ V.clen_npub
  have hA := b1 _ _ V.clen_ad
  have hM := b1 _ _ V.clen_m
  generalize hX : P.enc (bytesAt s a.k 16) (bytesAt s a.npub 16) (bytesAt s a.m a.mlen) = X
  have hXl : X.length = a.mlen := by rw [← hX]; simp
  -- state after the optional encryption
  have b2 : ∀ p n, Disjoint a.c (a.mlen + 16) p n → bytesAt (putBytes s1 a.c X) p n = bytesAt s1 p n := by
    intro p n h
    exact bytesAt_putBytes_disjoint _ _ _ _ _ (h.symm.mono (Nat.le_refl _) (by omega))
  have step : ∃ s', Runs (do
      let tag ← I.mac a.k a.npub a.ad a.adlen a.c a.mlen
      storeTag I.tagAlign (a.c + a.mlen) tag
      pure (0 : Int)) e (putBytes s1 a.c X) 0 s' ∧ s'.mem = (putBytes s1 a.c (P.encrypt (bytesAt s a.k 16)
        (bytesAt s a.npub 16) (bytesAt s a.ad a.adlen) (bytesAt s a.m a.mlen))).mem := by
    obtain ⟨s2, hm, hmem⟩ := hmac e (putBytes s1 a.c X) a.k a.npub a.ad a.adlen a.c a.mlen B.k B.npub B.ad B.c B.adlen_lt
      B.mlen_lt V.k V.npub V.ad (V.c.readable.mono (by omega)) B.over (V.c.readable.mono (hext _))
    rw [b2 _ _ V.c_k, b2 _ _ V.c_npub, b2 _ _ V.c_ad, hk, hN, hA, ← hXl, bytesAt_putBytes_same, hXl] at hm
    have hT := Spec.Params.length_mac W (K := bytesAt s a.k 16) (N := bytesAt s a.npub 16) (bytesAt s a.ad a.adlen) X
      (by simp) (by simp)
    refine ⟨_, runs_bind hm (runs_bind (runs_storeTag (htag ▸ B.tag) hd hT (V.c.add (by omega))) (runs_pure _ _ _)), ?_⟩
    rw [putBytes_mem_congr hmem]
    have := putBytes_append s1 a.c X (P.mac (bytesAt s a.k 16) (bytesAt s a.npub 16) (bytesAt s a.ad a.adlen) X)
    rw [hXl] at this
    rw [this]
    simp only [Spec.Params.encrypt, hX]
  obtain ⟨s', hr, hmem⟩ := step
  refine ⟨s', ?_, hmem⟩
  refine runs_bind (runs_storeLenIn V.clen) ?_
  rw [hs1]
  refine runs_bind (a := ()) (s' := putBytes s1 a.c X) ?_ hr
  by_cases h0 : a.mlen > 0
  · have he := henc e s1 a.k a.npub a.m a.mlen a.c B.k B.npub B.m B.c B.mlen_lt V.k V.npub V.m (V.c.mono (by omega)) V.c_m
    rw [hk, hN, hM, hX] at he
    exact runs_ifThen_true h0 he
  · have : X = [] := by apply List.length_eq_zero_iff.1; omega
    rw [this, putBytes_nil]
    exact runs_ifThen_false h0

theorem decryptInOK (o : ByteOrder) {P : Spec.Params} (W : P.Wf) {L : Limits} {I : Impl} (hext : ∀ n, L.ext n ≤ n + 16)
    (hmac : MacOK P L I.mac) (henc : EncOK P L I.enc) :
    DecryptInOK o P L (tagEq P) (I.aeadIn o).decrypt := by
  intro e s a V B
  obtain ⟨Bc, Bm, Blt⟩ := And.intro B.c (And.intro B.m B.clen_lt)
  generalize hl : a.clen - 16 = l at *
  have hge := V.clen_ge
  have hlt := V.clen_lt
  have hlcell : BitVec.ofNat 64 (a.clen + (2 ^ 64 - 16)) = BitVec.ofNat 64 l := by
    apply BitVec.eq_of_toNat_eq
    simp only [BitVec.toNat_ofNat]
    rw [show a.clen + (2 ^ 64 - 16) = l + 2 ^ 64 by omega, Nat.add_mod_right]
  generalize hs1 : putBytes s a.mlen (bytes o (BitVec.ofNat 64 l)) = s1
  have hcell : bytesAt s1 a.mlen 8 = bytes o (BitVec.ofNat 64 l) := by
    rw [← hs1, bytesAt_putBytes_same' _ _ _ (by simp)]
  have b1 : ∀ p n, Disjoint a.mlen 8 p n → bytesAt s1 p n = bytesAt s p n := by
    intro p n h
    rw [← hs1, bytesAt_putBytes_disjoint _ _ _ _ _ (by simpa using h.symm)]
  have hk := b1 _ _ V.mlen_k
  have hN := b1 _ _ V.mlen_npub
  have hA := b1 _ _ V.mlen_ad
  have hC : bytesAt s1 a.c l = bytesAt s a.c l := b1 _ _ (V.mlen_c.mono (Nat.le_refl _) (by omega))
  have hT : bytesAt s1 (a.c + l) 16 = bytesAt s (a.c + l) 16 := by
    apply b1
    have := V.mlen_c
    unfold Disjoint at *
    simp only [add_blk, add_off]; omega
  have hloadLen : Runs (loadLenIn o a.mlen) e s1 l s1 := runs_loadLenIn V.mlen (by omega) hcell rfl
  have hm := hmac e s1 a.k a.npub a.ad a.adlen a.c l B.k B.npub B.ad Bc B.adlen_lt Blt V.k V.npub V.ad
      (V.c.mono (by omega)) B.over (V.c.mono (Nat.le_trans (hext _) (by omega)))
  rw [hk, hN, hA, hC] at hm
  generalize hmac' : P.mac (bytesAt s a.k 16) (bytesAt s a.npub 16) (bytesAt s a.ad a.adlen) (bytesAt s a.c l) = T at *
  have hTl : T.length = 16 := by rw [← hmac']; exact Spec.Params.length_mac W _ _ (by simp) (by simp)
  generalize hT' : bytesAt s (a.c + l) 16 = T' at *
  have hTl' : T'.length = 16 := by rw [← hT']; simp
  have common : ∀ (r : Int) (sf : St),
      Runs (do
        let ok ← branch (decide ((List.range 16).foldl (fun cnt i => cnt + if T.getD i 0 = T'.getD i 0 then 1 else 0) 0 = 16))
        if ok then
          let l ← loadLenIn o a.mlen
          ifThen (l > 0) do
            let l ← loadLenIn o a.mlen
            I.enc a.k a.npub a.c l a.m
          pure 0
        else
          pure (-1)) e s1 r sf → Runs ((I.aeadIn o).decrypt a) e s r sf := by
    intro r sf h
    refine runs_bind (runs_storeLenIn V.mlen) ?_
    rw [hlcell, hs1]
    refine runs_bind hloadLen (runs_bind hm (runs_bind ?_ h))
    refine runs_forN_fold 16 0 0 (g := fun i cnt => cnt + if T.getD i 0 = T'.getD i 0 then 1 else 0) ?_
    intro j hj x
    rw [Nat.zero_add]
    refine runs_bind hloadLen ?_
    have hb := runs_load8_at (e := e) (s := s1) (p := a.c + l) (n := 16) (i := j) (V.c.add (by omega)) hj
    rw [hT, add_add] at hb
    exact runs_bind hb (runs_pure _ _ _)
  have hcount := count_eq T T' 16 (by omega) (by omega)
  rw [List.take_of_length_le (by omega), List.take_of_length_le (by omega)] at hcount
  constructor
  · intro hacc V'
    refine ⟨_, common 0 _ ?_, rfl⟩
    have hacc : T' = T := by rw [tagEq, hmac'] at hacc; exact hacc
    refine runs_if_true (hcount.2.2 hacc.symm) ?_
    refine runs_bind hloadLen ?_
    refine runs_bind (a := ()) (s' := putBytes s1 a.m (P.enc (bytesAt s a.k 16) (bytesAt s a.npub 16) (bytesAt s a.c l))) ?_
      (runs_pure _ _ _)
    by_cases h0 : l > 0
    · have he := henc e s1 a.k a.npub a.c l a.m B.k B.npub Bc Bm Blt V.k V.npub (V.c.mono (by omega)) (by rw [← hl]; exact V'.m)
        (by rw [← hl]; exact V'.m_c)
      rw [hk, hN, hC] at he
      exact runs_ifThen_true h0 (runs_bind hloadLen he)
    · have h0' : l = 0 := by omega
      have : P.enc (bytesAt s a.k 16) (bytesAt s a.npub 16) (bytesAt s a.c l) = [] := by
        apply List.length_eq_zero_iff.1; simp [h0']
      rw [this, putBytes_nil]
      exact runs_ifThen_false h0
  · intro hacc
    refine ⟨_, common (-1) _ ?_, rfl⟩
    have hacc : ¬ T = T' := fun h => hacc (by rw [tagEq, hmac']; exact h.symm)
    exact runs_if_false (fun h => hacc (hcount.2.1 h)) (runs_pure _ _ _)

end Model
