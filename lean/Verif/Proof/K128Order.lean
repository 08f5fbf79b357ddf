import Verif.Model.K128Order
import Verif.Proof.K128
import Verif.Proof.CipherApi
/-!
# What opt_64 of ISAP-K computes on platforms with either byte order

The tag is a function of the key, the nonce, the associated data and the ciphertext, and of up to six bytes behind the last two.
-/

namespace Model.K128.Ord
open C Spec
open KeccakRef (Lanes)

variable (o : ByteOrder) (R : Rounds)

/-- Bytes `18 * j` to `18 * j + 15` of the data and two bytes more: the 18 bytes that the code adds to the state for block `j`. -/
def blkF (X : Nat → Byte) (j : Nat) : List Byte :=
  (List.range 16).map (fun i => X (18 * j + i)) ++
    match o with
    | .little => [X (18 * j + 16), X (18 * j + 17)]
    | .big => [X (18 * j + 22), X (18 * j + 23)]

/-- One full block. -/
def stepF (X : Nat → Byte) (S : List Byte) (j : Nat) : List Byte := on o R.pH (xorMem S 0 (blkF o X j))

/-- Absorbing `len` bytes. -/
def absF (S : List Byte) (X : Nat → Byte) (len : Nat) : List Byte :=
  let n := remBlocks 18 len
  let S := (List.range n).foldl (stepF o R X) S
  let rem := len - 18 * n
  if rem = 18 then on o R.pH (xorLane o (stepF o R X S n) 0 0x80)
  else on o R.pH (xorAt (xorAt S 0 ((List.range rem).map fun i => X (18 * n + i))) rem [0x80])

/-- Re-keying. -/
def rkF (K : List Byte) (n : Nat) (Y : List Byte) : List Byte :=
  let S := on o R.pK (K ++ R.iv n ++ List.replicate 26 0)
  let S := (List.range 127).foldl (fun S i => on o R.pB (xorLane o S 0 ((A128.yBit (Y.getD (i / 8) 0) i).setWidth 16))) S
  on o R.pK (xorLane o S 0 (((Y.getD 15 0 &&& 1) <<< 7 : Byte).setWidth 16))

/-- The tag. -/
def macF (K N : List Byte) (A : Nat → Byte) (alen : Nat) (C : Nat → Byte) (clen : Nat) : List Byte :=
  let S := on o R.pH (N ++ ivBytes o (R.iv 1) ++ List.replicate 26 0)
  let S := absF o R (xorLane o (absF o R S A alen) 24 0x0100) C clen
  (on o R.pH ((rkF o R K 2 (S.take 16)).take 16 ++ S.drop 16)).take 16

/-- Block `i` of the keystream. -/
def ks (K N : List Byte) (i : Nat) : List Byte :=
  (Nat.repeat (on o R.pE) (i + 1) ((rkF o R K 3 N).take 34 ++ N)).take 18

/-- Encryption. -/
def encF (K N M : List Byte) : List Byte := xorStream 18 (ks o R K N) M

variable {o R}

/-! ## Lengths -/

theorem length_unwords (A : Lanes) : (unwords o A).length = 50 := by
  cases o
  · show (KeccakRef.unwords A).length = 50
    rw [KeccakRef.unwords_eq]; exact Spec.Keccak.length_toBytes _
  · have : ∀ (l : List (BitVec 16)), (l.flatMap fun l => bytes16 .big l).length = 2 * l.length := by
      intro l
      induction l with
      | nil => rfl
      | cons x xs ih =>
        have h2 : (bytes16 .big x).length = 2 := rfl
        rw [List.flatMap_cons, List.length_append, ih, List.length_cons, h2]; omega
    show (A.toList.flatMap fun l => bytes16 .big l).length = 50
    rw [this]; simp

@[simp] theorem length_on (f : Lanes → Lanes) (S : List Byte) : (on o f S).length = 50 := length_unwords _

theorem length_rkF (K : List Byte) (n : Nat) (Y : List Byte) : (rkF o R K n Y).length = 50 := length_on ..

theorem length_macF (K N : List Byte) (A : Nat → Byte) (alen : Nat) (C : Nat → Byte) (clen : Nat) :
    (macF o R K N A alen C clen).length = 16 := by
  simp [macF]

theorem length_repeat (f : Lanes → Lanes) (i : Nat) (S : List Byte) : (Nat.repeat (on o f) (i + 1) S).length = 50 := length_on ..

theorem length_ks (K N : List Byte) (i : Nat) : (ks o R K N i).length = 18 := by
  rw [ks, List.length_take, length_repeat]; rfl

@[simp] theorem length_encF (K N M : List Byte) : (encF o R K N M).length = M.length := length_xorStream ..

theorem length_absF (S : List Byte) (X : Nat → Byte) (len : Nat) : (absF o R S X len).length = 50 := by
  simp only [absF]; split <;> exact length_on ..

/-! ## The bytes the tag does not depend on -/

/-- Bytes 16 and 17 of a full block. -/
def Free (len i : Nat) : Prop := 16 ≤ i % 18 ∧ i < 18 * (len / 18)

instance (len i : Nat) : Decidable (Free len i) := by unfold Free; infer_instance

theorem absF_eq {X X' : Nat → Byte} {len : Nat} (hb : ∀ j, 18 * j + 18 ≤ len → blkF o X j = blkF o X' j)
    (ht : ∀ i, 18 * (len / 18) ≤ i → i < len → X i = X' i) (S : List Byte) : absF o R S X len = absF o R S X' len := by
  obtain ⟨hb1, hb2⟩ := remBlocks_le (r := 18) (by decide) len
  have hfold : ∀ n, 18 * n ≤ len → ∀ S, (List.range n).foldl (stepF o R X) S = (List.range n).foldl (stepF o R X') S := by
    intro n
    induction n with
    | zero => intro _ _; rw [List.range_zero, List.foldl_nil, List.foldl_nil]
    | succ n ih =>
      intro hn S
      rw [List.range_succ, List.foldl_append, List.foldl_append, ih (by omega)]
      simp only [List.foldl_cons, List.foldl_nil, stepF]
      rw [hb n (by omega)]
  simp only [absF]
  generalize remBlocks 18 len = n at *
  rw [hfold n (by omega)]
  by_cases h8 : len - 18 * n = 18
  · rw [if_pos h8, if_pos h8, stepF, stepF, hb n (by omega)]
  · rw [if_neg h8, if_neg h8]
    have : ((List.range (len - 18 * n)).map fun i => X (18 * n + i)) = (List.range (len - 18 * n)).map fun i => X' (18 * n + i) := by
      refine List.map_congr_left fun i hi => ?_
      have := List.mem_range.1 hi
      exact ht _ (by omega) (by omega)
    rw [this]

theorem map_eq {X X' : Nat → Byte} {j : Nat} (h : ∀ i, i < 16 → X (18 * j + i) = X' (18 * j + i)) :
    ((List.range 16).map fun i => X (18 * j + i)) = (List.range 16).map fun i => X' (18 * j + i) :=
  List.map_congr_left fun i hi => h i (List.mem_range.1 hi)

theorem blkF_big (X : Nat → Byte) (j : Nat) :
    blkF .big X j = (List.range 16).map (fun i => X (18 * j + i)) ++ [X (18 * j + 22), X (18 * j + 23)] := rfl

theorem blkF_little (X : Nat → Byte) (j : Nat) :
    blkF .little X j = (List.range 16).map (fun i => X (18 * j + i)) ++ [X (18 * j + 16), X (18 * j + 17)] := rfl

theorem le_ext {j len : Nat} (hj : 18 * j + 18 ≤ len) : 18 * j + 24 ≤ Opt64.ext len := by unfold Opt64.ext; split <;> omega

theorem self_le_ext (len : Nat) : len ≤ Opt64.ext len := by unfold Opt64.ext; split <;> omega

theorem absF_congr {X X' : Nat → Byte} {len : Nat}
    (h : ∀ i, i < Opt64.ext len → ¬ Free len i → X i = X' i) (S : List Byte) :
    absF .big R S X len = absF .big R S X' len := by
  have hx := self_le_ext len
  refine absF_eq (fun j hj => ?_) (fun i h1 h2 => h i (by omega) (by unfold Free; omega)) S
  have hx := le_ext hj
  have hf : ∀ i, 18 * j ≤ i → i < 18 * j + 24 → (i < 18 * j + 16 ∨ 18 * j + 18 ≤ i) → X i = X' i :=
    fun i h1 h2 h3 => h i (by omega) (by unfold Free; omega)
  rw [blkF_big, blkF_big, map_eq fun i hi => hf _ (by omega) (by omega) (by omega),
    hf (18 * j + 22) (by omega) (by omega) (by omega), hf (18 * j + 23) (by omega) (by omega) (by omega)]

theorem absF_ext {X X' : Nat → Byte} {len : Nat} (h : ∀ i, i < Opt64.ext len → X i = X' i) (S : List Byte) :
    absF o R S X len = absF o R S X' len := by
  have hx := self_le_ext len
  refine absF_eq (fun j hj => ?_) (fun i h1 h2 => h i (by omega)) S
  have hx := le_ext hj
  have hf : ∀ i, i < 18 * j + 24 → X i = X' i := fun i h1 => h i (by omega)
  cases o
  · rw [blkF_little, blkF_little, map_eq fun i hi => hf _ (by omega),
      hf (18 * j + 16) (by omega), hf (18 * j + 17) (by omega)]
  · rw [blkF_big, blkF_big, map_eq fun i hi => hf _ (by omega),
      hf (18 * j + 22) (by omega), hf (18 * j + 23) (by omega)]

theorem macF_ext {A A' C C' : Nat → Byte} {alen clen : Nat} (hA : ∀ i, i < Opt64.ext alen → A i = A' i)
    (hC : ∀ i, i < Opt64.ext clen → C i = C' i) (K N : List Byte) :
    macF o R K N A alen C clen = macF o R K N A' alen C' clen := by
  simp only [macF]
  rw [absF_ext hA, absF_ext hC]

/-- The tag does not depend on bytes 16 and 17 of any full block of the associated data or of the ciphertext. -/
theorem macF_congr {A A' C C' : Nat → Byte} {alen clen : Nat} (hA : ∀ i, i < Opt64.ext alen → ¬ Free alen i → A i = A' i)
    (hC : ∀ i, i < Opt64.ext clen → ¬ Free clen i → C i = C' i) (K N : List Byte) :
    macF .big R K N A alen C clen = macF .big R K N A' alen C' clen := by
  simp only [macF]
  rw [absF_congr hA, absF_congr hC]

/-! ## The functions compute this -/

variable {e : Env} {s : St}

/-- The bytes at `p`. -/
abbrev at_ (s : St) (p : Ptr) : Nat → Byte := fun i => s.mem p.blk (p.off + i)

theorem blkF_eq (s : St) (p : Ptr) (j : Nat) : blkF o (at_ s p) j = bytesAt s (p + 18 * j) 8 ++ bytesAt s (p + 18 * j + 8) 8 ++
    match o with | .little => (bytesAt s (p + 18 * j + 16) 8).take 2 | .big => (bytesAt s (p + 18 * j + 16) 8).drop 6 := by
  have h16 : bytesAt s (p + 18 * j) 8 ++ bytesAt s (p + 18 * j + 8) 8 = bytesAt s (p + 18 * j) 16 := (bytesAt_add s (p + 18 * j) 8 8).symm
  rw [h16]
  unfold blkF
  refine congr (congrArg _ ?_) ?_
  · simp only [at_, bytesAt, add_blk, add_off, Nat.add_assoc]
  · cases o
    · show [_, _] = List.take 2 _
      rw [bytesAt_take _ _ _ _ (by decide)]
      simp [bytesAt, List.range_succ, Nat.add_assoc]
    · show [_, _] = List.drop 6 _
      rw [bytesAt_drop]
      simp [bytesAt, List.range_succ, Nat.add_assoc]

theorem runs_ldBlk {src : Ptr} {len : Nat} (j : Nat) (hal : Aligned e 0 src len) (hx : Readable e src (Opt64.ext len))
    (hj : 18 * j + 18 ≤ len) : Runs (ldBlk o (src + 18 * j)) e s (blkF o (at_ s src) j) s := by
  have hal' : ∀ k, Aligned e 8 (src + k) 8 := fun k => Opt64.dvd_zero_al hal (by omega)
  have hext : 18 * j + 24 ≤ Opt64.ext len := by unfold Opt64.ext; split <;> omega
  refine runs_bind (runs_load (hal' _) (hx.add (by omega)) (by decide)) ?_
  refine runs_bind (runs_load ?_ ?_ (by decide)) ?_
  · rw [add_add]; exact hal' _
  · rw [add_add]; exact hx.add (by omega)
  refine runs_bind (runs_load ?_ ?_ (by decide)) ?_
  · rw [add_add]; exact hal' _
  · rw [add_add]; exact hx.add (by omega)
  exact Opt.runs_pure_eq (blkF_eq s src j).symm

theorem runs_absorbMac (S : List Byte) {src : Ptr} {len : Nat} (hal : Aligned e 0 src len) (h : Readable e src len)
    (hx : Readable e src (Opt64.ext len)) : Runs (absorbMac o R S src len) e s (absF o R S (at_ s src) len) s := by
  unfold absorbMac
  rw [whileRem_eq]
  obtain ⟨hb1, hb2⟩ := remBlocks_le (r := 18) (by decide) len
  simp only [absF]
  generalize remBlocks 18 len = n at *
  refine runs_bind (a := (List.range n).foldl (stepF o R (at_ s src)) S) (s' := s) ?_ ?_
  · refine runs_forN_fold n 0 S (g := fun j S => stepF o R (at_ s src) S j) ?_
    intro j hj S
    rw [Nat.zero_add]
    exact runs_bind (runs_ldBlk j hal hx (by omega)) (runs_pure _ _ _)
  · simp only [Nat.zero_add]
    by_cases h8 : len - 18 * n = 18
    · refine runs_if_true h8 ?_
      rw [if_pos h8]
      exact runs_bind (runs_ldBlk n hal hx (by omega)) (runs_pure _ _ _)
    · refine runs_if_false h8 ?_
      rw [if_neg h8]
      refine runs_bind (runs_part _ (by omega) (h.add (by omega))) (Opt.runs_pure_eq ?_)
      have : bytesAt s (src + 18 * n) (len - 18 * n) = (List.range (len - 18 * n)).map fun i => at_ s src (18 * n + i) := by
        simp only [at_, bytesAt, add_blk, add_off, Nat.add_assoc]
      rw [this]

theorem runs_isapRk {k : Ptr} {y : Src} (n outlen : Nat) (ho : outlen = 34 ∨ outlen = 16)
    (hal : Aligned e 0 k 16) (hk : Readable e k 16) (hy : y.Ok e 16) :
    Runs (isapRk o R k n y outlen) e s ((rkF o R (bytesAt s k 16) n (y.bytes s 16)).take outlen) s := by
  refine runs_bind (runs_loads (by decide) (by decide) 8 (hal.dvd ⟨0, rfl⟩) hk) ?_
  refine runs_bind (runs_forN_fold 127 0 _ (g := fun i S => on o R.pB (xorLane o S 0 ((A128.yBit ((y.bytes s 16).getD (i / 8) 0) i).setWidth 16)))
    fun j hj S => ?_) ?_
  · rw [Nat.zero_add]
    exact runs_bind (runs_get hy (by omega)) (runs_pure _ _ _)
  refine runs_bind (runs_get hy (by omega)) ?_
  rcases ho with rfl | rfl
  · exact runs_if_true rfl (runs_pure _ _ _)
  · exact runs_if_false (by decide) (runs_pure _ _ _)

theorem runs_isapMac {k npub ad c : Ptr} {adlen clen : Nat} (ak : Aligned e 0 k 16) (an : Aligned e 0 npub 16)
    (aa : Aligned e 0 ad adlen) (ac : Aligned e 0 c clen) (hk : Readable e k 16) (hn : Readable e npub 16)
    (ha : Readable e ad adlen) (hc : Readable e c clen) (hxa : Readable e ad (Opt64.ext adlen))
    (hxc : Readable e c (Opt64.ext clen)) :
    Runs (isapMac o R k npub ad adlen c clen) e s
      (macF o R (bytesAt s k 16) (bytesAt s npub 16) (at_ s ad) adlen (at_ s c) clen) s := by
  refine runs_bind (runs_loads (by decide) (by decide) 8 (an.dvd ⟨0, rfl⟩) hn) ?_
  refine runs_bind (runs_absorbMac _ aa ha hxa) ?_
  refine runs_bind (runs_absorbMac _ ac hc hxc) ?_
  simp only [macF]
  generalize hS : absF o R (xorLane o (absF o R (on o R.pH (bytesAt s npub 16 ++ ivBytes o (R.iv 1) ++ List.replicate 26 0))
    (at_ s ad) adlen) 24 0x0100) (at_ s c) clen = S
  have hSl : S.length = 50 := by rw [← hS]; exact length_absF ..
  refine runs_bind (runs_isapRk 2 16 (Or.inr rfl) ak hk (y := .loc (S.take 16)) (by simp [Src.Ok, hSl])) ?_
  have hb : (Src.loc (S.take 16)).bytes s 16 = S.take 16 := by simp [Src.bytes, List.take_take]
  rw [hb]
  exact runs_pure _ _ _

theorem runs_isapEnc {k npub m c : Ptr} {mlen : Nat} (ak : Aligned e 0 k 16) (an : Aligned e 0 npub 16)
    (am : Aligned e 0 m mlen) (hk : Readable e k 16) (hn : Readable e npub 16)
    (hm : Readable e m mlen) (hc : Writable e c mlen) (hov : OverlapOK c m mlen) :
    Runs (isapEnc o R k npub m mlen c) e s ()
      (putBytes s c (encF o R (bytesAt s k 16) (bytesAt s npub 16) (bytesAt s m mlen))) := by
  refine runs_bind (runs_isapRk 3 34 (Or.inl rfl) ak hk (y := .ext npub) hn) ?_
  refine runs_bind (runs_loads (by decide) (by decide) 8 (an.dvd ⟨0, rfl⟩) hn) ?_
  have hks : ∀ i, ks o R (bytesAt s k 16) (bytesAt s npub 16) i =
      (Nat.repeat (on o R.pE) (i + 1) ((rkF o R (bytesAt s k 16) 3 ((Src.ext npub).bytes s 16)).take 34 ++ bytesAt s npub (2 * 8))).take 18 :=
    fun _ => rfl
  have hkl := length_ks (o := o) (R := R) (bytesAt s k 16) (bytesAt s npub 16)
  unfold encF
  generalize ks o R (bytesAt s k 16) (bytesAt s npub 16) = KS at *
  generalize (rkF o R (bytesAt s k 16) 3 ((Src.ext npub).bytes s 16)).take 34 ++ bytesAt s npub (2 * 8) = S0 at *
  dsimp only
  rw [whileRem_eq]
  obtain ⟨hb1, hb2⟩ := remBlocks_le (r := 18) (by decide) mlen
  generalize remBlocks 18 mlen = n at *
  have blkr : ∀ i st, 18 * i + 18 ≤ mlen → Runs (encBlock (m + 18 * i) (c + 18 * i) (Nat.repeat (on o R.pE) (i + 1) S0)) e st ()
      (putBytes st (c + 18 * i) (xorBytes (bytesAt st (m + 18 * i) 18) (KS i))) := by
    intro i st hi
    refine runs_bind (Opt64.runs_ldMsg e st m mlen i am hm hi) ?_
    rw [← hks]
    have hl : (xorBytes (bytesAt st (m + 18 * i) 18) (KS i)).length = 18 := by
      rw [length_xorBytes]; simp [hkl]
    exact runs_store (bs := xorBytes _ _) (aligned_one _ _ _) (hc.add (by rw [hl]; omega)) (by rw [hl]; omega)
  have loop := runs_streamBlocks (e := e) (s := s) (r := 18) (by decide) hkl (m := m) (c := c) (mlen := mlen) n (by omega)
    (fun i => Nat.repeat (on o R.pE) (i + 1) S0)
    (body := fun i S => encBlock (m + 18 * i) (c + 18 * i) S >>= fun _ => pure (on o R.pE S)) hov
    (fun i hi st => runs_bind (blkr i st (by omega)) (runs_pure _ _ _))
  by_cases h8 : mlen - 18 * n = 18
  · refine runs_bind (a := Nat.repeat (on o R.pE) (n + 1) S0) (runs_bind loop (runs_if_true h8 ?_)) (runs_pure _ _ _)
    simp only [Nat.zero_add]
    refine runs_bind (blkr n _ (by omega)) (runs_eq2 (runs_pure _ _ _) rfl ?_)
    have := stream_rest (r := 18) (by decide) hkl s hov (n := n) (w := 18) (by omega) (by omega) _ rfl
    rw [List.take_of_length_le (l := KS n) (by rw [hkl]; omega)] at this
    exact this
  · refine runs_bind (a := Nat.repeat (on o R.pE) (n + 1) S0) (runs_bind loop (runs_if_false h8 ?_)) (runs_pure _ _ _)
    simp only [Nat.zero_add]
    refine runs_bind (runs_xorLoop ((KS n).take (mlen - 18 * n)) (OverlapOK.add hov (by omega))
      (hm.add (by omega)) (hc.add (by omega)) (by simp [hkl]; omega) ?_) (runs_eq2 (runs_pure _ _ _) rfl ?_)
    · intro i hi
      rw [hks]
      simp [List.getD, hi, show i < 18 by omega]
    · exact stream_rest (r := 18) (by decide) hkl s hov (n := n) (w := mlen - 18 * n) (by omega) (by omega) _ rfl

/-! ## `crypto_aead.c` -/

theorem encrypts {a : EncArgs} (V : ValidEnc e a) (B : Opt64.limits.Enc e a) :
    ∃ s' T, Runs (((impl o R).aeadIn o).encrypt a) e s 0 s' ∧
      T = macF o R (bytesAt s a.k 16) (bytesAt s a.npub 16)
        (at_ (putBytes (putBytes s a.clen (bytes o (BitVec.ofNat 64 (a.mlen + 16)))) a.c
          (encF o R (bytesAt s a.k 16) (bytesAt s a.npub 16) (bytesAt s a.m a.mlen))) a.ad) a.adlen
        (at_ (putBytes (putBytes s a.clen (bytes o (BitVec.ofNat 64 (a.mlen + 16)))) a.c
          (encF o R (bytesAt s a.k 16) (bytesAt s a.npub 16) (bytesAt s a.m a.mlen))) a.c) a.mlen ∧
      s'.mem = (putBytes (putBytes s a.clen (bytes o (BitVec.ofNat 64 (a.mlen + 16)))) a.c
        (encF o R (bytesAt s a.k 16) (bytesAt s a.npub 16) (bytesAt s a.m a.mlen) ++ T)).mem := by
  generalize hs1 : putBytes s a.clen (bytes o (BitVec.ofNat 64 (a.mlen + 16))) = s1
  have b1 : ∀ p n, Disjoint a.clen 8 p n → bytesAt s1 p n = bytesAt s p n := by
    intro p n h
    rw [← hs1, bytesAt_putBytes_disjoint _ _ _ _ _ (by simpa using h.symm)]
  have hk := b1 _ _ V.clen_k
  have hN := b1 _ _ V.clen_npub
  have hM := b1 _ _ V.clen_m
  generalize hX : encF o R (bytesAt s a.k 16) (bytesAt s a.npub 16) (bytesAt s a.m a.mlen) = X
  have hXl : X.length = a.mlen := by rw [← hX, length_encF]; simp
  have b2 : ∀ p n, Disjoint a.c (a.mlen + 16) p n → bytesAt (putBytes s1 a.c X) p n = bytesAt s1 p n := by
    intro p n h
    exact bytesAt_putBytes_disjoint _ _ _ _ _ (h.symm.mono (Nat.le_refl _) (by omega))
  have hm := runs_isapMac (o := o) (R := R) (s := putBytes s1 a.c X) B.k B.npub B.ad B.c V.k V.npub V.ad
    (V.c.readable.mono (by omega)) B.over (V.c.readable.mono (Opt64.ext_le _))
  rw [b2 _ _ V.c_k, b2 _ _ V.c_npub, hk, hN] at hm
  generalize hT : macF o R (bytesAt s a.k 16) (bytesAt s a.npub 16) (at_ (putBytes s1 a.c X) a.ad) a.adlen
    (at_ (putBytes s1 a.c X) a.c) a.mlen = T at *
  have hTl : T.length = 16 := by rw [← hT]; exact length_macF ..
  refine ⟨putBytes (putBytes s1 a.c X) (a.c + a.mlen) T, T, ?_, rfl, ?_⟩
  rotate_left
  · have := putBytes_append s1 a.c X T
    rw [hXl] at this
    rw [this]
  refine runs_bind (runs_storeLenIn V.clen) ?_
  rw [hs1]
  refine runs_bind (a := ()) (s' := putBytes s1 a.c X) ?_
    (runs_bind hm (runs_bind (runs_storeTag B.tag ⟨8, rfl⟩ hTl (V.c.add (by omega))) (runs_pure _ _ _)))
  by_cases h0 : a.mlen > 0
  · have he := runs_isapEnc (o := o) (R := R) (s := s1) B.k B.npub B.m V.k V.npub V.m (V.c.mono (by omega)) V.c_m
    rw [hk, hN, hM, hX] at he
    exact runs_ifThen_true h0 he
  · have : X = [] := by apply List.length_eq_zero_iff.1; omega
    rw [this, putBytes_nil]
    exact runs_ifThen_false h0

theorem decrypts {a : DecArgs} (V : ValidDec e a) (B : Opt64.limits.Dec e a)
    (hd : Disjoint a.mlen 8 a.ad (Opt64.ext a.adlen)) :
    ∃ r s', Runs (((impl o R).aeadIn o).decrypt a) e s r s' ∧ (r = 0 ∨ r = -1) ∧
      (r = 0 ↔ bytesAt s (a.c + (a.clen - 16)) 16 = macF o R (bytesAt s a.k 16) (bytesAt s a.npub 16) (at_ s a.ad) a.adlen
        (at_ s a.c) (a.clen - 16)) ∧
      (r = 0 → s'.mem = (putBytes (putBytes s a.mlen (bytes o (BitVec.ofNat 64 (a.clen - 16)))) a.m
          (encF o R (bytesAt s a.k 16) (bytesAt s a.npub 16) (bytesAt s a.c (a.clen - 16)))).mem) := by
  obtain ⟨Bc, Bm, Blt⟩ := And.intro B.c (And.intro B.m B.clen_lt)
  generalize hl : a.clen - 16 = l at *
  have hge := V.clen_ge
  have hlt := V.clen_lt
  have hlcell : BitVec.ofNat 64 (a.clen + (2 ^ 64 - 16)) = BitVec.ofNat 64 l := by
    apply BitVec.eq_of_toNat_eq
    simp only [BitVec.toNat_ofNat]
    rw [show a.clen + (2 ^ 64 - 16) = l + 2 ^ 64 by omega, Nat.add_mod_right]
  generalize hs1 : putBytes s a.mlen (bytes o (BitVec.ofNat 64 l)) = s1
  have hcell : bytesAt s1 a.mlen 8 = bytes o (BitVec.ofNat 64 l) := by
    rw [← hs1, bytesAt_putBytes_same' _ _ _ (by simp)]
  have b1 : ∀ p n, Disjoint a.mlen 8 p n → bytesAt s1 p n = bytesAt s p n := by
    intro p n h
    rw [← hs1, bytesAt_putBytes_disjoint _ _ _ _ _ (by simpa using h.symm)]
  have hk := b1 _ _ V.mlen_k
  have hN := b1 _ _ V.mlen_npub
  have hA := b1 _ _ hd
  have hC16 := b1 _ _ V.mlen_c
  have hC : bytesAt s1 a.c l = bytesAt s a.c l := b1 _ _ (V.mlen_c.mono (Nat.le_refl _) (by omega))
  have hT : bytesAt s1 (a.c + l) 16 = bytesAt s (a.c + l) 16 := by
    apply b1
    have := V.mlen_c
    unfold Disjoint at *
    simp only [add_blk, add_off]; omega
  have hloadLen : Runs (loadLenIn o a.mlen) e s1 l s1 := runs_loadLenIn V.mlen (by omega) hcell rfl
  have hm := runs_isapMac (o := o) (R := R) (s := s1) B.k B.npub B.ad Bc V.k V.npub V.ad
      (V.c.mono (by omega)) B.over (V.c.mono (by have := Opt64.ext_le l; omega))
  have hsame : ∀ (p : Ptr) n, bytesAt s1 p n = bytesAt s p n → ∀ i, i < n → at_ s1 p i = at_ s p i := by
    intro p n h i hi
    have := congrArg (fun l => l.getD i 0) h
    simp only [getD_bytesAt _ _ hi] at this
    exact this
  have hmac : macF o R (bytesAt s1 a.k 16) (bytesAt s1 a.npub 16) (at_ s1 a.ad) a.adlen (at_ s1 a.c) l =
      macF o R (bytesAt s a.k 16) (bytesAt s a.npub 16) (at_ s a.ad) a.adlen (at_ s a.c) l := by
    rw [hk, hN]
    exact macF_ext (hsame _ _ hA) (fun i hi => hsame _ _ hC16 i (by have := Opt64.ext_le l; omega)) _ _
  rw [hmac] at hm
  generalize hmac' : macF o R (bytesAt s a.k 16) (bytesAt s a.npub 16) (at_ s a.ad) a.adlen (at_ s a.c) l = T at *
  have hTl : T.length = 16 := by rw [← hmac']; exact length_macF ..
  generalize hT' : bytesAt s (a.c + l) 16 = T' at *
  have hTl' : T'.length = 16 := by rw [← hT']; simp
  have common : ∀ (r : Int) (sf : St),
      Runs (do
        let ok ← branch (decide ((List.range 16).foldl (fun cnt i => cnt + if T.getD i 0 = T'.getD i 0 then 1 else 0) 0 = 16))
        if ok then
          let l ← loadLenIn o a.mlen
          ifThen (l > 0) do
            let l ← loadLenIn o a.mlen
            isapEnc o R a.k a.npub a.c l a.m
          pure 0
        else
          pure (-1)) e s1 r sf → Runs (((impl o R).aeadIn o).decrypt a) e s r sf := by
    intro r sf h
    refine runs_bind (runs_storeLenIn V.mlen) ?_
    rw [hlcell, hs1]
    refine runs_bind hloadLen (runs_bind hm (runs_bind ?_ h))
    refine runs_forN_fold 16 0 0 (g := fun i cnt => cnt + if T.getD i 0 = T'.getD i 0 then 1 else 0) ?_
    intro j hj x
    rw [Nat.zero_add]
    refine runs_bind hloadLen ?_
    have hb := runs_load8_at (e := e) (s := s1) (p := a.c + l) (n := 16) (i := j) (V.c.add (by omega)) hj
    rw [hT, add_add] at hb
    exact runs_bind hb (runs_pure _ _ _)
  have hcount := count_eq T T' 16 (by omega) (by omega)
  rw [List.take_of_length_le (by omega), List.take_of_length_le (by omega)] at hcount
  by_cases hacc : T' = T
  · refine ⟨0, putBytes s1 a.m (encF o R (bytesAt s a.k 16) (bytesAt s a.npub 16) (bytesAt s a.c l)), common 0 _ ?_, Or.inl rfl,
      ⟨fun _ => hacc, fun _ => rfl⟩, fun _ => rfl⟩
    refine runs_if_true (hcount.2.2 hacc.symm) ?_
    refine runs_bind hloadLen ?_
    refine runs_bind (a := ()) (s' := putBytes s1 a.m (encF o R (bytesAt s a.k 16) (bytesAt s a.npub 16) (bytesAt s a.c l))) ?_
      (runs_pure _ _ _)
    by_cases h0 : l > 0
    · have he := runs_isapEnc (o := o) (R := R) (s := s1) (m := a.c) (mlen := l) (c := a.m) B.k B.npub Bc V.k V.npub (V.c.mono (by omega))
        (by rw [← hl]; exact V.m) (by rw [← hl]; exact V.m_c)
      rw [hk, hN, hC] at he
      exact runs_ifThen_true h0 (runs_bind hloadLen he)
    · have h0' : l = 0 := by omega
      have : encF o R (bytesAt s a.k 16) (bytesAt s a.npub 16) (bytesAt s a.c l) = [] := by
        apply List.length_eq_zero_iff.1; rw [length_encF]; simp [h0']
      rw [this, putBytes_nil]
      exact runs_ifThen_false h0
  · refine ⟨-1, s1, common (-1) _ ?_, Or.inr rfl, ⟨(fun h => nomatch h), fun h => absurd h hacc⟩, (fun h => nomatch h)⟩
    exact runs_if_false (fun h => hacc (hcount.2.1 h).symm) (runs_pure _ _ _)

end Model.K128.Ord
