import Verif.Proof.K128OrderWitness
import Verif.Props.Forgery
/-!
# C46, C52: opt_64 of ISAP-K on platforms of either byte order

The code reads the last two bytes of a block of 18 bytes by `S.l16[8] ^= *((UINT64 *)(src+idx+16))`.  On a big-endian platform these
are not bytes 16 and 17 of the block, but the two bytes four positions behind it.  Hence two bytes of every full block of the
associated data and of the ciphertext are not authenticated, and bytes behind the data are used.
-/

namespace Props
open C Model Spec Model.K128 Model.K128.Ord

/-- On a little-endian platform these are the functions that the other properties are about. -/
theorem C46_keccak_little (v : OptK) : v.aead .little = v.target.aead := v.aead_little

theorem K.limits (v : OptK) : v.target.limits = Opt64.limits := by cases v <;> rfl

/-! ## Forgeries -/

/-- The positions of bytes 16 and 17 of the full blocks of 18 bytes of `len` bytes of data. -/
def Unread (len i : Nat) : Prop := (i % 18 = 16 ∨ i % 18 = 17) ∧ i / 18 < len / 18

theorem unread_free {len i : Nat} : Free len i ↔ Unread len i := by
  unfold Free Unread; omega

/-- `p[0..n)` in `s` and `p'[0..n)` in `s'` differ at most at the positions `Q`. -/
def SameBut (Q : Nat → Prop) (s : St) (p : Ptr) (s' : St) (p' : Ptr) (n : Nat) : Prop :=
  ∀ i, i < n → ¬ Q i → s'.mem p'.blk (p'.off + i) = s.mem p.blk (p.off + i)

/-- **C52** fails for opt_64 of ISAP-K on big-endian platforms: whenever a ciphertext is accepted, it is accepted too after any
change of bytes 16 and 17 of the full blocks of the associated data and of the ciphertext body; the plaintext that is delivered
changes in the same bits as the ciphertext. -/
theorem C52_keccak_not (v : OptK) (e e' : Env) (s s1 s' : St) (d d' : DecArgs)
    (V : ValidDec e d) (L : v.target.limits.Dec e d) (V' : ValidDec e' d') (L' : v.target.limits.Dec e' d')
    (hx : Disjoint d.mlen 8 d.ad (v.target.limits.ext d.adlen)) (hx' : Disjoint d'.mlen 8 d'.ad (v.target.limits.ext d'.adlen))
    (h : Runs ((v.aead .big).decrypt d) e s 0 s1)
    (hk : bytesAt s' d'.k 16 = bytesAt s d.k 16)
    (hn : bytesAt s' d'.npub 16 = bytesAt s d.npub 16)
    (hal : d'.adlen = d.adlen) (hcl : d'.clen = d.clen)
    (had : SameBut (Unread d.adlen) s d.ad s' d'.ad (v.target.limits.ext d.adlen))
    (hc : SameBut (Unread (d.clen - 16)) s d.c s' d'.c d.clen) :
    ∃ s2, Runs ((v.aead .big).decrypt d') e' s' 0 s2 ∧
      ∀ i, i < d.clen - 16 → s2.mem d'.m.blk (d'.m.off + i) ^^^ s1.mem d.m.blk (d.m.off + i) =
        s'.mem d'.c.blk (d'.c.off + i) ^^^ s.mem d.c.blk (d.c.off + i) := by
  rw [K.limits] at L L' hx hx' had
  have hge := V.clen_ge
  obtain ⟨r, s3, h3, -, hacc, hmem⟩ := decrypts (o := .big) (R := v.rounds) (s := s) V L hx
  obtain ⟨rfl, rfl⟩ := Runs.det h h3
  obtain ⟨r', s2, h2, -, hacc', hmem'⟩ := decrypts (o := .big) (R := v.rounds) (s := s') V' L' hx'
  have hT := hacc.1 rfl
  have hT' : bytesAt s' (d'.c + (d'.clen - 16)) 16 = bytesAt s (d.c + (d.clen - 16)) 16 := by
    rw [hcl]
    refine List.map_congr_left fun i hi => ?_
    have hi := List.mem_range.1 hi
    have := hc (d.clen - 16 + i) (by omega) (by unfold Unread; omega)
    simpa [Nat.add_assoc] using this
  have hr : r' = 0 := by
    refine hacc'.2 ?_
    rw [hT', hT, hk, hn, hal, hcl]
    refine macF_congr (fun i hi hf => ?_) (fun i hi hf => ?_) _ _
    · exact (had i hi fun hu => hf (unread_free.2 hu)).symm
    · have := Opt64.ext_le (d.clen - 16)
      exact (hc i (by omega) fun hu => hf (unread_free.2 hu)).symm
  subst hr
  refine ⟨s2, h2, fun i hi => ?_⟩
  have hm := hmem rfl
  have hm' := hmem' rfl
  rw [hcl, hk, hn] at hm'
  have get : ∀ (t : St) (p : Ptr) (X : List Byte) , X.length = d.clen - 16 →
      (putBytes t p X).mem p.blk (p.off + i) = X.getD i 0 := by
    intro t p X hX
    rw [putBytes_mem, if_pos ⟨rfl, by omega, by omega⟩, Nat.add_sub_cancel_left]
  rw [hm, hm', get _ _ _ (by simp), get _ _ _ (by simp), encF, encF, getD_xorStream (by simpa using hi),
    getD_xorStream (by simpa using hi), getD_bytesAt _ _ hi, getD_bytesAt _ _ hi]
  generalize (ks .big v.rounds (bytesAt s d.k 16) (bytesAt s d.npub 16) (i / 18)).getD (i % 18) 0 = k
  generalize s'.mem d'.c.blk (d'.c.off + i) = x
  generalize s.mem d.c.blk (d.c.off + i) = y
  rw [BitVec.xor_comm y k, BitVec.xor_assoc, ← BitVec.xor_assoc k k y, BitVec.xor_self, BitVec.zero_xor]

theorem K.absF_append {R : Rounds} {X : Nat → Byte} {len : Nat} (hl : len % 18 = 0) (hp : 0 < len) (h0 : X len = 0) (S : List Byte) :
    absF .big R S X (len + 1) = absF .big R S X len := by
  obtain ⟨n, rfl⟩ : ∃ n, len = 18 * (n + 1) := ⟨len / 18 - 1, by omega⟩
  have h1 : remBlocks 18 (18 * (n + 1)) = n := by unfold remBlocks; omega
  have h2 : remBlocks 18 (18 * (n + 1) + 1) = n + 1 := by unfold remBlocks; omega
  have h3 : 18 * (n + 1) - 18 * n = 18 := by omega
  have h4 : 18 * (n + 1) + 1 - 18 * (n + 1) = 1 := by omega
  simp only [absF]
  rw [h1, h2, h3, h4, if_pos rfl, if_neg (by decide), List.range_succ, List.foldl_append, List.foldl_cons, List.foldl_nil]
  generalize stepF .big R X _ n = T
  have h5 : xorLane .big T 0 0x80 = xorMem T 0 [0x00, 0x80] := rfl
  have h6 : (List.range 1).map (fun i => X (18 * (n + 1) + i)) = [0x00] := by
    show [X (18 * (n + 1) + 0)] = [0x00]
    rw [Nat.add_zero, h0]
  rw [h5, h6, xorMem_eq]
  have h7 := xorAt_append T 0 [0x00] [0x80]
  rw [← show [(0x00 : Byte)] ++ [0x80] = [0x00, 0x80] from rfl, ← h7]
  rfl

/-- **C52** fails for opt_64 of ISAP-K on big-endian platforms, padding: if a ciphertext is accepted with associated data whose
length is a positive multiple of 18, and a zero byte is behind it in memory, it is accepted with the zero byte appended. -/
theorem C52_keccak_not_padding (v : OptK) (e : Env) (s s1 : St) (d : DecArgs)
    (V : ValidDec e d) (L : v.target.limits.Dec e d) (hx : Disjoint d.mlen 8 d.ad (v.target.limits.ext d.adlen))
    (h : Runs ((v.aead .big).decrypt d) e s 0 s1)
    (hlen : d.adlen % 18 = 0) (hpos : 0 < d.adlen) (hz : s.mem d.ad.blk (d.ad.off + d.adlen) = 0) :
    ∃ s2, Runs ((v.aead .big).decrypt { d with adlen := d.adlen + 1 }) e s 0 s2 ∧ s2.mem = s1.mem := by
  rw [K.limits] at L hx
  have hext : Opt64.ext (d.adlen + 1) = Opt64.ext d.adlen := by unfold Opt64.ext; split <;> split <;> omega
  have h1 : d.adlen + 1 ≤ Opt64.ext d.adlen := by unfold Opt64.ext; split <;> omega
  obtain ⟨r, s3, h3, -, hacc, hmem⟩ := decrypts (o := .big) (R := v.rounds) (s := s) V L hx
  obtain ⟨rfl, rfl⟩ := Runs.det h h3
  have hlt := V.adlen_lt
  have V' : ValidDec e { d with adlen := d.adlen + 1 } :=
    { V with
      ad := L.over.mono h1
      adlen_lt := by show d.adlen + 1 < 2 ^ 64; omega
      mlen_ad := hx.mono (Nat.le_refl _) h1 }
  have L' : Opt64.limits.Dec e { d with adlen := d.adlen + 1 } :=
    { L with
      ad := by
        rcases L.ad with h | h | h
        · exact absurd h (by omega)
        · exact .tolerant h _ _ _
        · exact absurd rfl h.1
      adlen_lt := by show d.adlen + 1 < 2 ^ 64; omega
      over := by show Readable e d.ad (Opt64.ext (d.adlen + 1)); rw [hext]; exact L.over }
  obtain ⟨r', s2, h2, -, hacc', hmem'⟩ := decrypts (o := .big) (R := v.rounds) (s := s) V' L' (by
    show Disjoint d.mlen 8 d.ad (Opt64.ext (d.adlen + 1))
    rw [hext]; exact hx)
  have hr : r' = 0 := by
    refine hacc'.2 ?_
    show bytesAt s (d.c + (d.clen - 16)) 16 = macF .big v.rounds (bytesAt s d.k 16) (bytesAt s d.npub 16) (at_ s d.ad)
      (d.adlen + 1) (at_ s d.c) (d.clen - 16)
    rw [hacc.1 rfl]
    simp only [macF]
    rw [K.absF_append hlen hpos hz]
  subst hr
  exact ⟨s2, h2, by rw [hmem rfl, hmem' rfl]⟩

/-! ## Round trips -/

/-- **C46** for opt_64 of ISAP-K: on a platform of either byte order, it decrypts what it has encrypted, if the message is shorter than
a block of 18 bytes, or its last block has between 6 and 17 bytes.  The bytes behind the associated data that are used must be the
same in both calls, and must not be overwritten by the results.  Missing: other lengths. -/
theorem C46_keccak_round_trip_partial (v : OptK) (o : ByteOrder) (e e' : Env) (s s1 s2 : St) (a : EncArgs) (d : DecArgs) (r : Int)
    (V : ValidEnc e a) (L : v.target.limits.Enc e a) (V' : ValidDec e' d) (L' : v.target.limits.Dec e' d)
    (hx1 : Disjoint a.c (a.mlen + 16) a.ad (v.target.limits.ext a.adlen))
    (hx2 : Disjoint a.clen 8 a.ad (v.target.limits.ext a.adlen))
    (hx3 : Disjoint d.mlen 8 d.ad (v.target.limits.ext d.adlen))
    (hmlen : a.mlen < 18 ∨ 6 ≤ a.mlen % 18)
    (h : Runs ((v.aead o).encrypt a) e s r s1)
    (hk : bytesAt s2 d.k 16 = bytesAt s a.k 16)
    (hn : bytesAt s2 d.npub 16 = bytesAt s a.npub 16)
    (hal : d.adlen = a.adlen)
    (had : bytesAt s2 d.ad (v.target.limits.ext a.adlen) = bytesAt s a.ad (v.target.limits.ext a.adlen))
    (hlen : d.clen = (word o (bytesAt s1 a.clen 8)).toNat)
    (hc : bytesAt s2 d.c d.clen = bytesAt s1 a.c d.clen) :
    ∃ s3, Runs ((v.aead o).decrypt d) e' s2 0 s3 ∧
      (word o (bytesAt s3 d.mlen 8)).toNat = a.mlen ∧
      bytesAt s3 d.m a.mlen = bytesAt s a.m a.mlen := by
  rw [K.limits] at L L' hx1 hx2 hx3 had
  have hx1 : Disjoint a.c (a.mlen + 16) a.ad (Opt64.ext a.adlen) := hx1
  have hx2 : Disjoint a.clen 8 a.ad (Opt64.ext a.adlen) := hx2
  have had : bytesAt s2 d.ad (Opt64.ext a.adlen) = bytesAt s a.ad (Opt64.ext a.adlen) := had
  have hext : Opt64.ext a.mlen = a.mlen := by unfold Opt64.ext; split <;> omega
  obtain ⟨s', T, h', hT, hm⟩ := encrypts (o := o) (R := v.rounds) (s := s) V L
  obtain ⟨rfl, rfl⟩ := Runs.det h h'
  generalize hX : encF o v.rounds (bytesAt s a.k 16) (bytesAt s a.npub 16) (bytesAt s a.m a.mlen) = X at *
  have hXl : X.length = a.mlen := by rw [← hX]; simp
  have hTl : T.length = 16 := by rw [hT]; exact length_macF ..
  have hXT : (X ++ T).length = a.mlen + 16 := by simp [hXl, hTl]
  have hcl : d.clen = a.mlen + 16 := by
    rw [hlen, bytesAt_mem_congr hm, bytesAt_putBytes_disjoint, bytesAt_putBytes_same' _ _ _ (by simp), word_bytes,
      BitVec.toNat_ofNat, Nat.mod_eq_of_lt V.mlen_lt]
    rw [hXT]; exact V.clen_c
  have hl : d.clen - 16 = a.mlen := by omega
  rw [hcl, bytesAt_mem_congr hm, bytesAt_putBytes_same' _ _ _ hXT, bytesAt_add] at hc
  obtain ⟨hC, hT2⟩ := List.append_inj hc (by simp [hXl])
  obtain ⟨r', s3, h3, -, hacc, hmem⟩ := decrypts (o := o) (R := v.rounds) (s := s2) V' L' hx3
  have hr : r' = 0 := by
    refine hacc.2 ?_
    rw [hl, hT2, hk, hn, hal, hT]
    refine macF_ext (fun i hi => ?_) (fun i hi => ?_) _ _
    · have h1 : bytesAt (putBytes (putBytes s a.clen (bytes o (BitVec.ofNat 64 (a.mlen + 16)))) a.c X) a.ad (Opt64.ext a.adlen) =
          bytesAt s2 d.ad (Opt64.ext a.adlen) := by
        rw [had, bytesAt_putBytes_disjoint _ _ _ _ _ (hx1.symm.mono (Nat.le_refl _) (by omega)),
          bytesAt_putBytes_disjoint _ _ _ _ _ (by simpa using hx2.symm)]
      have := congrArg (fun l => l.getD i 0) h1
      simp only [getD_bytesAt _ _ hi] at this
      exact this
    · rw [hext] at hi
      have h1 : bytesAt (putBytes (putBytes s a.clen (bytes o (BitVec.ofNat 64 (a.mlen + 16)))) a.c X) a.c a.mlen =
          bytesAt s2 d.c a.mlen := by
        rw [hC, bytesAt_putBytes_same' _ _ _ hXl]
      have := congrArg (fun l => l.getD i 0) h1
      simp only [getD_bytesAt _ _ hi] at this
      exact this
  subst hr
  have hm3 := hmem rfl
  rw [hl, hk, hn, hC] at hm3
  have hlt := V.mlen_lt
  have hml := V'.mlen_m
  rw [hl] at hml
  refine ⟨s3, h3, ?_, ?_⟩
  · rw [bytesAt_mem_congr hm3, bytesAt_putBytes_disjoint _ _ _ _ _ (by simpa [hXl] using hml),
      bytesAt_putBytes_same' _ _ _ (by simp), word_bytes, BitVec.toNat_ofNat, Nat.mod_eq_of_lt (by omega)]
  · rw [bytesAt_mem_congr hm3, bytesAt_putBytes_same' _ _ _ (by simp [hXl]), ← hX, encF, encF, xorStream_xorStream]

/-- The tag of no associated data and 18 bytes depends only on bytes 0 to 15, 22 and 23. -/
theorem K.macF_18 {R : Rounds} (K N : List Byte) {A A' C C' : Nat → Byte} (h : ∀ i, i < 16 → C i = C' i) (h22 : C 22 = C' 22)
    (h23 : C 23 = C' 23) : macF .big R K N A 0 C 18 = macF .big R K N A' 0 C' 18 := by
  simp only [macF]
  have hA : ∀ S, absF .big R S A 0 = absF .big R S A' 0 := absF_ext fun i hi => absurd hi (Nat.not_lt_zero i)
  have hC : ∀ S, absF .big R S C 18 = absF .big R S C' 18 := absF_eq (fun j hj => ?_) (fun i h1 h2 => absurd h2 (by omega))
  · rw [hA, hC]
  have hj0 : j = 0 := by omega
  subst hj0
  rw [blkF_big, blkF_big, map_eq (X := C) (X' := C') fun i hi => by simpa using h i hi]
  show _ ++ [C 22, C 23] = _ ++ [C' 22, C' 23]
  rw [h22, h23]

namespace K

/-- Encrypt 18 bytes in object 2 to object 0; the key (object 5) and the nonce (object 4) are zero. -/
def enc : EncArgs := { Sample.enc with mlen := 18, adlen := 0 }

/-- Decrypt the result to object 7. -/
def dec : DecArgs := { Sample.dec with clen := 34, adlen := 0 }

/-- The message whose ciphertext is zero. -/
def msg : List Byte := encF .big OptK.k128a.rounds (zeros 16) (zeros 16) (zeros 18)

/-- Everything else is zero. -/
def st : St := putBytes zeroSt ⟨2, 0⟩ msg

theorem length_msg : msg.length = 18 := by rw [msg, length_encF]; simp [zeros]

theorem st_zero {b i : Nat} (h : b ≠ 2) : st.mem b i = 0 := by
  rw [st, putBytes_frame rfl fun hb => h hb.1]; rfl

theorem validEnc : ValidEnc Mixed.env enc where
  k := fun _ _ => rfl
  npub := fun _ _ => rfl
  ad := fun _ _ => rfl
  m := fun _ _ => rfl
  c := fun _ _ => ⟨rfl, rfl⟩
  clen := fun _ _ => ⟨rfl, rfl⟩
  adlen_lt := by decide
  mlen_lt := by decide
  c_m := by decide
  c_ad := by decide
  c_npub := by decide
  c_k := by decide
  clen_c := by decide
  clen_m := by decide
  clen_ad := by decide
  clen_npub := by decide
  clen_k := by decide

theorem validDec : ValidDec Mixed.env dec where
  k := fun _ _ => rfl
  npub := fun _ _ => rfl
  ad := fun _ _ => rfl
  c := fun _ _ => rfl
  mlen := fun _ _ => ⟨rfl, rfl⟩
  adlen_lt := by decide
  clen_lt := by decide
  clen_ge := by decide
  mlen_c := by decide
  mlen_ad := by decide
  mlen_npub := by decide
  mlen_k := by decide
  m := fun _ _ => ⟨rfl, rfl⟩
  m_c := by decide
  mlen_m := by decide

theorem limitsEnc {a : EncArgs} (h1 : a.adlen < 2 ^ 64) (h2 : a.mlen < 2 ^ 64) : Opt64.limits.Enc Mixed.env a :=
  Limits.enc_tolerant rfl h1 h2 fun _ _ => rfl

theorem limitsDec {d : DecArgs} (h1 : d.adlen < 2 ^ 64) (h2 : d.clen - 16 < 2 ^ 64) : Opt64.limits.Dec Mixed.env d :=
  Limits.dec_tolerant rfl h1 h2 fun _ _ => rfl

end K

open K in
/-- **C46** fails for opt_64 of isapk128av20: on a big-endian platform, for an all-zero key and nonce and no associated data, there is a
message of 18 bytes whose encryption is not accepted. -/
theorem C46_keccak_not_round_trip : ∃ (e : Env) (s s1 s2 : St) (a : EncArgs) (d : DecArgs), ValidEnc e a ∧ ValidDec e d ∧
    OptK.k128a.target.limits.Enc e a ∧ OptK.k128a.target.limits.Dec e d ∧ d.k = a.k ∧ d.npub = a.npub ∧ d.ad = a.ad ∧
    d.adlen = a.adlen ∧ d.c = a.c ∧ d.clen = a.mlen + 16 ∧
    Runs ((OptK.k128a.aead .big).encrypt a) e s 0 s1 ∧ Runs ((OptK.k128a.aead .big).decrypt d) e s1 (-1) s2 := by
  have Le : Opt64.limits.Enc Mixed.env enc := limitsEnc (by decide) (by decide)
  have Ld : Opt64.limits.Dec Mixed.env dec := limitsDec (by decide) (by decide)
  obtain ⟨s1, T, h, hT, hm⟩ := encrypts (o := .big) (R := OptK.k128a.rounds) (s := st) validEnc Le
  obtain ⟨r, s2, h2, hr, hacc, -⟩ := decrypts (o := .big) (R := OptK.k128a.rounds) (s := s1) validDec Ld (Or.inr (Or.inl rfl))
  have hk : bytesAt st enc.k 16 = zeros 16 := Mixed.bytesAt_zeros fun _ => st_zero (by decide)
  have hn : bytesAt st enc.npub 16 = zeros 16 := Mixed.bytesAt_zeros fun _ => st_zero (by decide)
  have hM : bytesAt st enc.m enc.mlen = msg := bytesAt_putBytes_same' _ _ _ length_msg
  have hX : encF .big OptK.k128a.rounds (zeros 16) (zeros 16) msg = zeros 18 := by
    rw [msg, encF, encF, xorStream_xorStream]
  rw [hk, hn, hM, hX] at hT hm
  have hT0 : T = tag18 k128a 0 0 := by
    rw [hT]
    have z : ∀ i, (putBytes (putBytes st enc.clen (bytes .big (BitVec.ofNat 64 (enc.mlen + 16)))) enc.c (zeros 18)).mem 0 i = 0 := by
      intro i
      rw [putBytes_mem]
      split
      · rw [List.getD, zeros, List.getElem?_replicate]; split <;> rfl
      · rw [putBytes_frame rfl fun hb => absurd hb.1 (by decide), st_zero (by decide)]
    refine K.macF_18 _ _ (fun i hi => ?_) ?_ ?_
    · show (putBytes _ _ _).mem 0 (0 + i) = _
      rw [z, if_neg (by omega), if_neg (by omega)]
    · exact z _
    · exact z _
  rw [tag18_k128a] at hT0
  have hc : ∀ i, i < 34 → s1.mem 0 i = (zeros 18 ++ T).getD i 0 := by
    intro i hi
    have hl : i < (zeros 18 ++ T).length := by rw [hT0]; exact Nat.lt_of_lt_of_eq hi rfl
    rw [hm, putBytes_mem, if_pos ⟨rfl, Nat.zero_le _, Nat.lt_of_lt_of_eq hl (Nat.zero_add _).symm⟩]
    rfl
  have fr : ∀ b i, b ≠ 0 → b ≠ 1 → b ≠ 2 → s1.mem b i = 0 := by
    intro b i h0 h1 h2
    rw [hm, putBytes_frame rfl fun hb => h0 hb.1, putBytes_frame rfl fun hb => h1 hb.1, st_zero h2]
  have hk1 : bytesAt s1 dec.k 16 = zeros 16 := Mixed.bytesAt_zeros fun _ => fr _ _ (by decide) (by decide) (by decide)
  have hn1 : bytesAt s1 dec.npub 16 = zeros 16 := Mixed.bytesAt_zeros fun _ => fr _ _ (by decide) (by decide) (by decide)
  have hm1 : macF .big OptK.k128a.rounds (bytesAt s1 dec.k 16) (bytesAt s1 dec.npub 16) (at_ s1 dec.ad) dec.adlen (at_ s1 dec.c)
      (dec.clen - 16) = tag18 k128a 0xb9 0xfb := by
    rw [hk1, hn1]
    refine K.macF_18 _ _ (fun i hi => ?_) ?_ ?_
    · show s1.mem 0 (0 + i) = _
      rw [Nat.zero_add, hc i (by omega), if_neg (by omega), if_neg (by omega)]
      rw [List.getD, List.getElem?_append_left (by rw [zeros, List.length_replicate]; omega), zeros, List.getElem?_replicate]
      split <;> rfl
    · show s1.mem 0 (0 + 22) = _
      rw [hc _ (by decide), hT0]; rfl
    · show s1.mem 0 (0 + 23) = _
      rw [hc _ (by decide), hT0]; rfl
  have hr1 : r = -1 := by
    rcases hr with rfl | hr
    · have h3 := hacc.1 rfl
      rw [hm1] at h3
      have h4 := congrArg (fun l => l.getD 0 0) h3
      refine absurd ?_ tag18_k128a'
      rw [← h4]
      show s1.mem 0 18 = _
      rw [hc _ (by decide), hT0]; rfl
    · exact hr
  subst hr1
  exact ⟨Mixed.env, st, s1, s2, enc, dec, validEnc, validDec, Le, Ld, rfl, rfl, rfl, rfl, rfl, rfl, h, h2⟩

/-! ### Calls that meet the hypotheses -/

namespace K

/-- Encrypt 24 bytes with 36 bytes of associated data. -/
def enc24 : EncArgs := { Sample.enc with mlen := 24, adlen := 36 }

theorem validEnc24 : ValidEnc Mixed.env enc24 where
  k := fun _ _ => rfl
  npub := fun _ _ => rfl
  ad := fun _ _ => rfl
  m := fun _ _ => rfl
  c := fun _ _ => ⟨rfl, rfl⟩
  clen := fun _ _ => ⟨rfl, rfl⟩
  adlen_lt := by decide
  mlen_lt := by decide
  c_m := by decide
  c_ad := by decide
  c_npub := by decide
  c_k := by decide
  clen_c := by decide
  clen_m := by decide
  clen_ad := by decide
  clen_npub := by decide
  clen_k := by decide

/-- A ciphertext made by the code is accepted. -/
theorem round_trip (v : OptK) : ∃ s1 s2, Runs ((v.aead .big).encrypt enc24) Mixed.env zeroSt 0 s1 ∧
    Runs ((v.aead .big).decrypt (Mixed.dec 40 36)) Mixed.env (Mixed.put s1 (bytesAt s1 enc24.c 40)) 0 s2 ∧
    ∀ b i, b ≠ 0 → b ≠ 1 → s1.mem b i = 0 := by
  have Le : v.target.limits.Enc Mixed.env enc24 := by rw [K.limits]; exact limitsEnc (by decide) (by decide)
  have Ld : v.target.limits.Dec Mixed.env (Mixed.dec 40 36) := by rw [K.limits]; exact limitsDec (by decide) (by decide)
  have Le' := Le
  rw [K.limits] at Le'
  obtain ⟨s1, T, h, hT, hm⟩ := encrypts (o := .big) (R := v.rounds) (s := zeroSt) validEnc24 Le'
  have hz : ∀ b i, b ≠ 0 → b ≠ 1 → s1.mem b i = 0 := by
    intro b i h0 h1
    rw [hm, putBytes_frame rfl fun hb => h0 hb.1, putBytes_frame rfl fun hb => h1 hb.1]; rfl
  have hlen : (40 : Nat) = (word .big (bytesAt s1 enc24.clen 8)).toNat := by
    have hTl : T.length = 16 := by rw [hT]; exact length_macF ..
    rw [bytesAt_mem_congr hm, bytesAt_putBytes_disjoint, bytesAt_putBytes_same' _ _ _ (by simp), word_bytes]
    · rfl
    · exact Or.inr (Or.inr (Or.inl (by decide : (1 : Nat) ≠ 0)))
  obtain ⟨s2, h2, -⟩ := C46_keccak_round_trip_partial v .big Mixed.env Mixed.env zeroSt s1 (Mixed.put s1 (bytesAt s1 enc24.c 40)) enc24
    (Mixed.dec 40 36) 0 validEnc24 Le (Mixed.validDec (by decide) (by decide) (by decide)) Ld
    (Or.inr (Or.inr (Or.inl (by decide : (0 : Nat) ≠ 3)))) (Or.inr (Or.inr (Or.inl (by decide : (1 : Nat) ≠ 3))))
    (Or.inr (Or.inr (Or.inl (by decide : (8 : Nat) ≠ 3)))) (Or.inr (by decide)) h
    ((Mixed.put_zero hz _ (by decide) (by decide) (by decide)).trans (Mixed.bytesAt_zeros fun _ => rfl).symm)
    ((Mixed.put_zero hz _ (by decide) (by decide) (by decide)).trans (Mixed.bytesAt_zeros fun _ => rfl).symm)
    rfl
    ((Mixed.put_zero hz _ (by decide) (by decide) (by decide)).trans (Mixed.bytesAt_zeros fun _ => rfl).symm)
    hlen (bytesAt_putBytes_same' _ _ _ (by simp [Mixed.dec]))
  exact ⟨s1, s2, h, h2, hz⟩

end K

open K in
/-- A ciphertext of 24 bytes with all bits of byte 17 changed, and associated data of 36 bytes with those of bytes 16 and 34 changed, is
accepted, and byte 17 of the plaintext is changed. -/
example (v : OptK) : ∃ s1 s2 s' s3, Runs ((v.aead .big).decrypt (Mixed.dec 40 36)) Mixed.env s1 0 s2 ∧
    Runs ((v.aead .big).decrypt (Mixed.dec 40 36)) Mixed.env s' 0 s3 ∧
    s'.mem 9 17 = ~~~ (s1.mem 9 17) ∧ s'.mem 3 16 = ~~~ (s1.mem 3 16) ∧ s'.mem 3 34 = ~~~ (s1.mem 3 34) ∧
    s3.mem 7 17 = ~~~ (s2.mem 7 17) := by
  obtain ⟨s0, s2, -, h2, -⟩ := round_trip v
  generalize Mixed.put s0 (bytesAt s0 enc24.c 40) = s1 at h2
  have V : ValidDec Mixed.env (Mixed.dec 40 36) := Mixed.validDec (by decide) (by decide) (by decide)
  have L : v.target.limits.Dec Mixed.env (Mixed.dec 40 36) := by rw [K.limits]; exact limitsDec (by decide) (by decide)
  let s' : St := { s1 with mem := fun b i =>
    if (b = 9 ∧ i = 17) ∨ (b = 3 ∧ (i = 16 ∨ i = 34)) then ~~~ (s1.mem b i) else s1.mem b i }
  have hd : Disjoint (Mixed.dec 40 36).mlen 8 (Mixed.dec 40 36).ad (v.target.limits.ext 36) :=
    Or.inr (Or.inr (Or.inl (by decide : (8 : Nat) ≠ 3)))
  have hs : ∀ b i, b ≠ 9 → b ≠ 3 → s'.mem b i = s1.mem b i := fun b i h1 h2 => if_neg (by omega)
  obtain ⟨s3, h3, hp⟩ := C52_keccak_not v Mixed.env Mixed.env s1 s2 s' (Mixed.dec 40 36) (Mixed.dec 40 36) V L V L hd hd h2
    (List.map_congr_left fun i _ => hs _ _ (by decide) (by decide))
    (List.map_congr_left fun i _ => hs _ _ (by decide) (by decide)) rfl rfl
    (fun i _ hu => if_neg (by
      show ¬ ((3 = 9 ∧ 0 + i = 17) ∨ (3 = 3 ∧ (0 + i = 16 ∨ 0 + i = 34)))
      have hu : ¬ Unread 36 i := hu
      unfold Unread at hu; omega))
    (fun i _ hu => if_neg (by
      show ¬ ((9 = 9 ∧ 0 + i = 17) ∨ (9 = 3 ∧ (0 + i = 16 ∨ 0 + i = 34)))
      have hu : ¬ Unread 24 i := hu
      unfold Unread at hu; omega))
  refine ⟨s1, s2, s', s3, h2, h3, rfl, rfl, rfl, ?_⟩
  have h17 : s3.mem 7 17 ^^^ s2.mem 7 17 = ~~~ (s1.mem 9 17) ^^^ s1.mem 9 17 := hp 17 (by decide)
  generalize s3.mem 7 17 = x at *
  generalize s2.mem 7 17 = y at *
  generalize s1.mem 9 17 = z at *
  apply BitVec.eq_of_getLsbD_eq
  intro i hi
  have h18 := congrArg (fun w => w.getLsbD i) h17
  simp only [BitVec.getLsbD_xor, BitVec.getLsbD_not, hi, decide_true, Bool.true_and] at h18 ⊢
  revert h18
  cases x.getLsbD i <;> cases y.getLsbD i <;> cases z.getLsbD i <;> decide

open K in
/-- A zero byte appended to associated data of 36 bytes. -/
example (v : OptK) : ∃ s1 s2 s3, Runs ((v.aead .big).decrypt (Mixed.dec 40 36)) Mixed.env s1 0 s2 ∧
    Runs ((v.aead .big).decrypt (Mixed.dec 40 37)) Mixed.env s1 0 s3 := by
  obtain ⟨s0, s2, -, h2, hz⟩ := round_trip v
  have L : v.target.limits.Dec Mixed.env (Mixed.dec 40 36) := by rw [K.limits]; exact limitsDec (by decide) (by decide)
  obtain ⟨s3, h3, -⟩ := C52_keccak_not_padding v Mixed.env _ s2 (Mixed.dec 40 36)
    (Mixed.validDec (by decide) (by decide) (by decide)) L (Or.inr (Or.inr (Or.inl (by decide : (8 : Nat) ≠ 3)))) h2 rfl (by decide) (by
      show (Mixed.put s0 _).mem 3 (0 + 36) = 0
      rw [Mixed.put, putBytes_frame rfl fun hb => absurd hb.1 (by decide), hz 3 _ (by decide) (by decide)])
  exact ⟨_, s2, s3, h2, h3⟩

end Props
