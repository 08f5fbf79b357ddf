import Verif.Proof.K128Perm
import Verif.Proof.A128
/-!
# The optimized ISAP-K for 64-bit and AVX-512 machines meets its contract
-/

namespace C

/-- Counted loop with an invariant, memory unchanged. -/
theorem runs_forN_inv {σ : Type} {f : Nat → σ → CM σ} {e : Env} {s : St} (Inv : Nat → σ → Prop) (n : Nat) : ∀ (i : Nat)
    (_ : ∀ j, i ≤ j → j < i + n → ∀ x, Inv j x → ∃ x', Runs (f j x) e s x' s ∧ Inv (j + 1) x') {x : σ} (_ : Inv i x),
    ∃ x', Runs (forN n i f x) e s x' s ∧ Inv (i + n) x' := by
  induction n with
  | zero => intro i _ x h0; exact ⟨x, runs_bind (runs_branch _ _ _) (runs_pure _ _ _), h0⟩
  | succ n ih =>
    intro i h x h0
    obtain ⟨x1, h1, h2⟩ := h i (Nat.le_refl _) (by omega) x h0
    obtain ⟨x2, h3, h4⟩ := ih (i + 1) (fun j hj hj' => h j (by omega) (by omega)) h2
    refine ⟨x2, runs_bind (runs_branch _ _ _) (runs_bind h1 h3), ?_⟩
    rw [show i + (n + 1) = i + 1 + n by omega]; exact h4

end C

namespace Model.K128
open C Spec

variable {e : Env} {s : St} {D : Prims} {P : Params} {L : Limits}

/-- The first 50 bytes of the object representation are the specified state. -/
def Rel (S T : List Byte) : Prop := 50 ≤ S.length ∧ S.take 50 = T

theorem Rel.take {S T : List Byte} (h : Rel S T) {n : Nat} (hn : n ≤ 50) : S.take n = T.take n := by
  rw [← h.2, List.take_take, Nat.min_eq_left hn]

theorem Rel.len {S T : List Byte} (h : Rel S T) : T.length = 50 := by rw [← h.2]; simp [h.1]

theorem Rel.refl {S : List Byte} (h : S.length = 50) : Rel S S := ⟨by omega, List.take_of_length_le (by omega)⟩

theorem take_xorAt (S : List Byte) (off : Nat) (bs : List Byte) (n : Nat) :
    (xorAt S off bs).take n = xorAt (S.take n) off bs := by
  apply List.ext_getElem
  · simp
  · intro i h1 h2
    simp only [List.getElem_take, getElem_xorAt]

theorem Rel.xor {S T : List Byte} (h : Rel S T) (off : Nat) (bs : List Byte) : Rel (xorAt S off bs) (xorAt T off bs) :=
  ⟨by rw [length_xorAt]; exact h.1, by rw [take_xorAt, h.2]⟩

theorem xorMem_eq (S : List Byte) (off : Nat) (bs : List Byte) : xorMem S off bs = xorAt S off bs := by
  rw [xorMem, Ref.foldl_modify _ _ _ _ (Nat.le_refl _), List.take_length]

/-- The primitives do what they should. -/
structure PrimsOK (D : Prims) (P : Params) (L : Limits) : Prop where
  wf : P.Wf
  n : P.n = 50
  r : P.r = 18
  iv : ∀ i, D.iv i = P.iv i
  pH : ∀ S T, Rel S T → Rel (D.pH S) (P.pH T)
  pB : ∀ S T, Rel S T → Rel (D.pB S) (P.pB T)
  pE : ∀ S T, Rel S T → Rel (D.pE S) (P.pE T)
  pK : ∀ S T, Rel S T → Rel (D.pK S) (P.pK T)
  al2 : 2 ∣ L.al
  ldBlk : ∀ e s src len i, Aligned e L.al src len → Readable e src (L.ext len) → Readable e src len → 18 * i + 18 ≤ len →
    Runs (D.ldBlk (src + 18 * i)) e s (bytesAt s (src + 18 * i) 18) s
  ldMsg : ∀ e s src len i, Aligned e L.al src len → Readable e src len → 18 * i + 18 ≤ len →
    Runs (D.ldMsg (src + 18 * i)) e s (bytesAt s (src + 18 * i) 18) s

theorem runs_loads {al w : Nat} (hw : 0 < w) (hd : al ∣ w) (n : Nat) {p : Ptr} (hal : Aligned e al p (w * n))
    (h : Readable e p (w * n)) : Runs (loads al w n p) e s (bytesAt s p (w * n)) s := by
  induction n generalizing p with
  | zero => exact runs_pure _ _ _
  | succ n ih =>
    have e1 : w * (n + 1) = w + w * n := by rw [Nat.mul_add, Nat.mul_one, Nat.add_comm]
    rw [e1] at hal h ⊢
    refine runs_bind (runs_load (hal.mono (by omega)) (h.mono (by omega)) hw) ?_
    refine runs_bind (ih (hal.add (Nat.mod_eq_zero_of_dvd hd) (Nat.le_refl _)) (h.add (Nat.le_refl _))) ?_
    exact Opt.runs_pure_eq (bytesAt_add ..).symm

/-- Initial states. -/
theorem rel_init (W : P.Wf) (hn : P.n = 50) {K : List Byte} (hK : K.length = 16) (i : Nat) (pad : List Byte) :
    Rel (K ++ P.iv i ++ List.replicate 26 0 ++ pad) (P.initState K (P.iv i)) := by
  have hl := Params.length_initState W i hK
  rw [hn] at hl
  have : P.initState K (P.iv i) = K ++ P.iv i ++ List.replicate 26 0 := by
    simp only [Params.initState, hn, zeros]
  rw [← this]
  exact ⟨by simp [hl], by rw [List.take_append_of_le_length (by omega), List.take_of_length_le (by omega)]⟩

theorem blk_eq {src : Ptr} {len j : Nat} (hj : 18 * j + 18 ≤ len) :
    bytesAt s (src + 18 * j) 18 = blk 18 (bytesAt s src len) j := by
  rw [blk, bytesAt_drop, bytesAt_take _ _ _ _ (by omega), Nat.mul_comm]

theorem runs_part {src : Ptr} {rem : Nat} (S : List Byte) (hr : rem < 18) (h : Readable e src rem) :
    Runs (forN 18 0 (padByte src rem) S) e s (xorAt (xorAt S 0 (bytesAt s src rem)) rem [0x80]) s := by
  have hX : (bytesAt s src rem).length = rem := by simp
  have hfin : xorAt (xorAt S 0 (bytesAt s src rem)) rem [0x80] = xorAt S 0 ((bytesAt s src rem ++ [0x80]).take 18) := by
    have := xorAt_append S 0 (bytesAt s src rem) [0x80]
    rw [hX, Nat.zero_add] at this
    rw [this, List.take_of_length_le (by simp; omega)]
  rw [hfin]
  generalize hZ : bytesAt s src rem ++ [(0x80 : Byte)] = Z
  have hZl : Z.length = rem + 1 := by rw [← hZ]; simp
  suffices hh : Runs (forN 18 0 (padByte src rem) (xorAt S 0 (Z.take 0))) e s (xorAt S 0 (Z.take 18)) s by
    simpa using hh
  refine runs_forN_pure 18 0 (fun j => xorAt S 0 (Z.take j)) ?_
  intro j hj
  rw [Nat.zero_add]
  have hstep : ∀ (hjr : j < Z.length), xorAt (xorAt S 0 (Z.take j)) j [Z[j]] = xorAt S 0 (Z.take (j + 1)) := by
    intro hjr
    have := xorAt_append S 0 (Z.take j) [Z[j]]
    rw [show (Z.take j).length = j by simp; omega, Nat.zero_add] at this
    rw [this, List.take_add_one (i := j), List.getElem?_eq_getElem hjr, Option.toList_some]
  by_cases h1 : j < rem
  · refine runs_if_true h1 (runs_bind (runs_load8 (by simpa using h j h1)) (Opt.runs_pure_eq ?_))
    rw [xorMem_eq, ← hstep (by omega)]
    congr 2
    subst hZ
    rw [List.getElem_append_left (by simpa using h1), getElem_bytesAt]
    rfl
  · refine runs_if_false h1 ?_
    by_cases h2 : j = rem
    · refine runs_if_true h2 (Opt.runs_pure_eq ?_)
      rw [xorMem_eq, ← hstep (by omega)]
      congr 2
      subst hZ
      rw [List.getElem_append_right (by simp; omega)]
      simp
    · refine runs_if_false h2 (Opt.runs_pure_eq ?_)
      rw [List.take_of_length_le (by omega), List.take_of_length_le (by omega)]

theorem runs_absorbMac (O : PrimsOK D P L) {S T : List Byte} (hS : Rel S T) {src : Ptr} {len : Nat}
    (hal : Aligned e L.al src len) (h : Readable e src len) (hx : Readable e src (L.ext len)) :
    ∃ S', Runs (absorbMac D S src len) e s S' s ∧ Rel S' (P.absorb T (blocks P.r (bytesAt s src len))) := by
  have hT : T.length = P.n := by rw [hS.len, O.n]
  rw [Params.absorb_blocks O.wf _ hT, length_bytesAt, O.r]
  generalize hX : bytesAt s src len = X
  have hXl : X.length = len := by rw [← hX]; simp
  unfold absorbMac
  rw [whileRem_eq]
  obtain ⟨hb1, hb2⟩ := remBlocks_le (r := 18) (by decide) len
  have hpart := remBlocks_part (r := 18) (len := len) (by decide)
  have hlast := remBlocks_last (r := 18) (len := len) (by decide)
  generalize hn : remBlocks 18 len = n at *
  have step : ∀ j, 18 * j + 18 ≤ len → ∀ S, Rel S (P.absFull T X j) →
      Runs (D.ldBlk (src + 18 * j)) e s (blk 18 X j) s ∧
        Rel (D.pH (xorMem S 0 (blk 18 X j))) (P.absFull T X (j + 1)) := by
    intro j hj S hS
    refine ⟨?_, ?_⟩
    · have := O.ldBlk e s src len j hal hx h hj
      rwa [blk_eq hj, hX] at this
    · rw [Params.absFull_succ, O.r, xorMem_eq]
      exact O.pH _ _ (hS.xor _ _)
  obtain ⟨S1, h1, h2⟩ := runs_forN_inv (e := e) (s := s) (fun j S => Rel S (P.absFull T X j)) n 0
    (f := fun i S => D.ldBlk (src + 18 * i) >>= fun d => pure (D.pH (xorMem S 0 d))) (by
      intro j _ hj S hS
      obtain ⟨h1, h2⟩ := step j (by omega) S hS
      exact ⟨_, runs_bind h1 (runs_pure _ _ _), h2⟩) (x := S) hS
  rw [Nat.zero_add] at h2
  by_cases h8 : len - 18 * n = 18
  · obtain ⟨h3, h4⟩ := step n (by omega) S1 h2
    refine ⟨D.pH (xorMem (D.pH (xorMem S1 0 (blk 18 X n))) 0 [0x80]), runs_bind h1 (runs_if_true h8 ?_), ?_⟩
    · simp only [Nat.zero_add]
      exact runs_bind h3 (runs_pure _ _ _)
    · obtain ⟨e1, e2⟩ := hlast h8
      rw [e1, e2, List.drop_of_length_le (by omega), xorAt_nil, xorMem_eq]
      exact O.pH _ _ (h4.xor _ _)
  · obtain ⟨e1, e2⟩ := hpart h8
    refine ⟨D.pH (xorAt (xorAt S1 0 (bytesAt s (src + 18 * n) (len - 18 * n))) (len - 18 * n) [0x80]),
      runs_bind h1 (runs_if_false h8 ?_), ?_⟩
    · simp only [Nat.zero_add]
      exact runs_bind (runs_part S1 (by omega) (h.add (by omega))) (runs_pure _ _ _)
    · have : bytesAt s (src + 18 * n) (len - 18 * n) = X.drop (len / 18 * 18) := by
        rw [← hX, bytesAt_drop, ← e1, Nat.mul_comm n 18]
      rw [this, e2]
      rw [e1] at h2
      exact O.pH _ _ ((h2.xor _ _).xor _ _)

theorem runs_isapRk (O : PrimsOK D P L) {k : Ptr} {y : Src} (i outlen : Nat) (ho : outlen = 34 ∨ outlen = 16)
    (hal : Aligned e L.al k 16) (hk : Readable e k 16) (hy : y.Ok e 16) :
    Runs (isapRk D k i y outlen) e s (P.rk (bytesAt s k 16) (P.iv i) (y.bytes s 16) outlen) s := by
  have hY := Src.length_bytes (s := s) hy
  have hK : (bytesAt s k 16).length = 16 := by simp
  rw [Params.rk_eq O.wf i outlen hK hY]
  refine runs_bind (runs_loads (by decide) (by decide) 8 (hal.dvd O.al2) hk) ?_
  rw [O.iv]
  have h0 := O.pK _ _ (rel_init O.wf O.n hK i (D.padRk i))
  obtain ⟨S1, h1, h2⟩ := runs_forN_inv (e := e) (s := s)
    (fun n S => Rel S ((List.range n).foldl (fun S j => P.pB (xorAt S 0 [Params.rkByte (y.bytes s 16) j]))
      (P.pK (P.initState (bytesAt s k 16) (P.iv i))))) 127 0
    (f := fun i S => y.get (i / 8) >>= fun yb => pure (D.pB (xorMem S 0 [A128.yBit yb i]))) (by
      intro j _ hj S hS
      refine ⟨_, runs_bind (runs_get hy (by omega)) (runs_pure _ _ _), ?_⟩
      rw [List.range_succ, List.foldl_append, xorMem_eq, A128.yBit_eq]
      exact O.pB _ _ (hS.xor _ _)) h0
  rw [Nat.zero_add] at h2
  refine runs_bind h1 (runs_bind (runs_get hy (by omega)) ?_)
  rw [A128.lastBit, xorMem_eq]
  have h3 := O.pK _ _ (h2.xor 0 [Params.bitByte (((y.bytes s 16).getD 15 0).getLsbD 0)])
  rcases ho with rfl | rfl
  · exact runs_if_true rfl (Opt.runs_pure_eq (h3.take (by omega)))
  · exact runs_if_false (by decide) (Opt.runs_pure_eq (h3.take (by omega)))

theorem macOK (O : PrimsOK D P L) : MacOK P L (isapMac D) := by
  intro e s k npub ad adlen c clen ak an aa ac _ _ hk hnp had hc hxa hxc
  have hN : (bytesAt s npub 16).length = 16 := by simp
  refine runs_bind (runs_loads (by decide) (by decide) 8 (an.dvd O.al2) hnp) ?_
  rw [O.iv]
  have h0 := O.pH _ _ (rel_init O.wf O.n hN 1 D.padMac)
  obtain ⟨S1, h1, r1⟩ := runs_absorbMac (s := s) O h0 aa had hxa
  refine runs_bind h1 ?_
  rw [xorMem_eq]
  have r2 := r1.xor 49 [0x01]
  have hA : (P.absorb (P.pH (P.initState (bytesAt s npub 16) (P.iv 1))) (blocks P.r (bytesAt s ad adlen))).length = P.n := by
    rw [r1.len, O.n]
  have hds := Params.domSep_eq O.wf hA
  rw [O.n] at hds
  rw [← hds] at r2
  obtain ⟨S2, h2, r3⟩ := runs_absorbMac (s := s) O r2 ac hc hxc
  refine runs_bind h2 ?_
  rw [r3.take (by omega)]
  have hm : P.mac (bytesAt s k 16) (bytesAt s npub 16) (bytesAt s ad adlen) (bytesAt s c clen) = P.mac (bytesAt s k 16) (bytesAt s npub 16) (bytesAt s ad adlen) (bytesAt s c clen) := rfl
  conv at hm => rhs; simp only [Params.mac, Params.ivA, Params.ivKA]
  rw [hm]
  generalize P.absorb (P.domSep (P.absorb (P.pH (P.initState (bytesAt s npub 16) (P.iv 1))) (blocks P.r (bytesAt s ad adlen))))
    (blocks P.r (bytesAt s c clen)) = T at *
  have hT := r3.len
  refine runs_bind (runs_isapRk O 2 16 (Or.inr rfl) ak hk (y := .loc (T.take 16)) (by simp [Src.Ok, hT])) ?_
  have hb : (Src.loc (T.take 16)).bytes s 16 = T.take 16 := by simp [Src.bytes, List.take_take]
  rw [hb]
  have hrl := Params.length_rk O.wf (K := bytesAt s k 16) (Y := T.take 16) 2 16 (by simp) (by simp [hT])
    (by have := O.n; omega)
  refine Opt.runs_pure_eq (Rel.take (O.pH _ _ ⟨?_, ?_⟩) (by omega))
  · have := r3.1; simp [hrl]; omega
  · rw [List.take_append, hrl, List.take_of_length_le (by omega), ← r3.2, List.drop_take]

theorem rel_repeat (O : PrimsOK D P L) {S T : List Byte} (h : Rel S T) (i : Nat) :
    Rel (Nat.repeat D.pE i S) (Nat.repeat P.pE i T) := by
  induction i with
  | zero => exact h
  | succ i ih => exact O.pE _ _ ih

theorem encOK (O : PrimsOK D P L) : EncOK P L (isapEnc D) := by
  intro e s k npub m mlen c ak an am ac _ hk hnp hm hc hov
  have hr := O.r
  have hn := O.n
  have hkl := Params.length_rk O.wf (K := bytesAt s k 16) (Y := bytesAt s npub 16) 3 (P.n - 16) (by simp) (by simp) (by omega)
  have hIl := Params.length_encInit O.wf (K := bytesAt s k 16) (N := bytesAt s npub 16) (by simp) (by simp)
  refine runs_bind (runs_isapRk O 3 34 (Or.inl rfl) ak hk (y := .ext npub) hnp) ?_
  refine runs_bind (runs_loads (by decide) (by decide) 8 (an.dvd O.al2) hnp) ?_
  have hI : P.rk (bytesAt s k 16) (P.iv 3) (bytesAt s npub 16) 34 ++ bytesAt s npub 16 =
      P.encInit (bytesAt s k 16) (bytesAt s npub 16) := by
    simp only [Params.encInit, Params.ivKE, hn]
  simp only [Src.bytes]
  have hI' : P.rk (bytesAt s k 16) (P.iv 3) (bytesAt s npub 16) 34 ++ bytesAt s npub (2 * 8) =
      P.encInit (bytesAt s k 16) (bytesAt s npub 16) := hI
  rw [hI']
  have hrel : Rel (P.encInit (bytesAt s k 16) (bytesAt s npub 16) ++ D.padEnc) (P.encInit (bytesAt s k 16) (bytesAt s npub 16)) :=
    ⟨by rw [List.length_append, hIl]; omega,
     by rw [List.take_append_of_le_length (by omega), List.take_of_length_le (by omega)]⟩
  generalize hS0 : P.encInit (bytesAt s k 16) (bytesAt s npub 16) ++ D.padEnc = S0 at *
  rw [whileRem_eq]
  obtain ⟨hb1, hb2⟩ := remBlocks_le (r := 18) (by decide) mlen
  generalize hq : remBlocks 18 mlen = n at *
  have hks : ∀ i, (Nat.repeat D.pE (i + 1) S0).take 18 = ksBlock P (bytesAt s k 16) (bytesAt s npub 16) i := by
    intro i
    rw [ksBlock, hr]
    exact (rel_repeat O hrel (i + 1)).take (by omega)
  have hksl : ∀ i, (ksBlock P (bytesAt s k 16) (bytesAt s npub 16) i).length = 18 := by
    intro i
    rw [← hks, List.length_take, Nat.min_eq_left]
    exact Nat.le_trans (by decide) (rel_repeat O hrel (i + 1)).1
  have blkr : ∀ i st, 18 * i + 18 ≤ mlen → Runs (encBlock D (m + 18 * i) (c + 18 * i) (Nat.repeat D.pE (i + 1) S0)) e st ()
      (putBytes st (c + 18 * i) (xorBytes (bytesAt st (m + 18 * i) 18) (ksBlock P (bytesAt s k 16) (bytesAt s npub 16) i))) := by
    intro i st hi
    refine runs_bind (O.ldMsg e st m mlen i am hm hi) ?_
    rw [hks]
    have hl : (xorBytes (bytesAt st (m + 18 * i) 18) (ksBlock P (bytesAt s k 16) (bytesAt s npub 16) i)).length = 18 := by
      rw [length_xorBytes]; simp [hksl]
    exact runs_store (bs := xorBytes _ _) (aligned_one _ _ _) (hc.add (by rw [hl]; omega)) (by rw [hl]; omega)
  have loop := runs_encBlocks O.wf (K := bytesAt s k 16) (N := bytesAt s npub 16) (by simp) (by simp) (e := e) (s := s)
    (m := m) (c := c) (mlen := mlen) n (by rw [hr]; omega) (fun i => Nat.repeat D.pE (i + 1) S0)
    (body := fun i S => encBlock D (m + 18 * i) (c + 18 * i) S >>= fun _ => pure (D.pE S)) hov (by
      intro i hi st
      rw [hr] at hi
      rw [hr]
      exact runs_bind (blkr i st (by omega)) (runs_pure _ _ _))
  rw [hr] at loop
  by_cases h8 : mlen - 18 * n = 18
  · refine runs_bind (a := Nat.repeat D.pE (n + 1) S0) (runs_bind loop (runs_if_true h8 ?_)) (runs_pure _ _ _)
    simp only [Nat.zero_add]
    refine runs_bind (blkr n _ (by omega)) (runs_eq2 (runs_pure _ _ _) rfl ?_)
    have := enc_rest O.wf (K := bytesAt s k 16) (N := bytesAt s npub 16) (by simp) (by simp) s hov (n := n) (w := 18)
      (by omega) (by rw [hr]; omega) _ rfl
    rw [hr, List.take_of_length_le (l := ksBlock _ _ _ _) (by rw [hksl]; omega)] at this
    exact this
  · refine runs_bind (a := Nat.repeat D.pE (n + 1) S0) (runs_bind loop (runs_if_false h8 ?_)) (runs_pure _ _ _)
    simp only [Nat.zero_add]
    refine runs_bind (runs_xorLoop ((ksBlock P (bytesAt s k 16) (bytesAt s npub 16) n).take (mlen - 18 * n)) (OverlapOK.add hov (by omega))
      (hm.add (by omega)) (hc.add (by omega)) (by simp [hksl]; omega) ?_) (runs_eq2 (runs_pure _ _ _) rfl ?_)
    · intro i hi
      rw [← hks]
      simp [List.getD, hi, show i < 18 by omega]
    · have := enc_rest O.wf (K := bytesAt s k 16) (N := bytesAt s npub 16) (by simp) (by simp) s hov (n := n)
        (w := mlen - 18 * n) (by omega) (by rw [hr]; omega) _ rfl
      rw [hr] at this
      exact this

/-! ## The three implementations -/

namespace Opt64

theorem ext_le (n : Nat) : ext n ≤ n + 16 := by unfold ext; split <;> omega

/-- Needs a platform that tolerates misaligned accesses (blocks are 18 bytes long and are read by 64-bit loads). -/
def limits : Limits := ⟨0, 2, 2 ^ 64, ext⟩

theorem words_take (S : List Byte) : KeccakRef.words S = Keccak.ofBytes (S.take 50) := by
  apply Vector.ext
  intro i hi
  simp only [KeccakRef.words, Keccak.ofBytes, Vector.getElem_ofFn]
  simp [List.getD, show 2 * i + 1 < 50 by omega, show 2 * i < 50 by omega]

theorem rel_unwords {n : Nat} {f : KeccakRef.Lanes → KeccakRef.Lanes} (hf : ∀ A, f A = Keccak.p n A) {S T : List Byte}
    (h : Rel S T) : Rel (KeccakRef.unwords (f (KeccakRef.words S))) (Keccak.perm n T) := by
  rw [hf, words_take, KeccakRef.unwords_eq, h.2]
  exact .refl (Keccak.length_toBytes _)

theorem bytesAt18 (s : St) (p : Ptr) : bytesAt s p 18 = bytesAt s p 8 ++ bytesAt s (p + 8) 8 ++ bytesAt s (p + 16) 2 := by
  rw [show (18 : Nat) = 8 + (8 + 2) from rfl, bytesAt_add, bytesAt_add, List.append_assoc, add_add]

theorem dvd_zero_al {e : Env} {p : Ptr} {n m al k : Nat} (h : Aligned e 0 p n) (hn : n ≠ 0) : Aligned e al (p + k) m := by
  rcases h with h | h | h
  · exact absurd h hn
  · exact .tolerant h _ _ _
  · exact absurd rfl h.1

theorem runs_ldBlk (e : Env) (s : St) (src : Ptr) (len i : Nat) (hal : Aligned e 0 src len) (hx : Readable e src (ext len))
    (_h : Readable e src len) (hi : 18 * i + 18 ≤ len) :
    Runs (ldBlk (src + 18 * i)) e s (bytesAt s (src + 18 * i) 18) s := by
  have hal' : ∀ k, Aligned e 8 (src + k) 8 := fun k => dvd_zero_al hal (by omega)
  have hext : 18 * i + 24 ≤ ext len := by unfold ext; split <;> omega
  refine runs_bind (runs_load (hal' _) (hx.add (by omega)) (by decide)) ?_
  refine runs_bind (runs_load ?_ ?_ (by decide)) ?_
  · rw [add_add]; exact hal' _
  · rw [add_add]; exact hx.add (by omega)
  refine runs_bind (runs_load ?_ ?_ (by decide)) ?_
  · rw [add_add]; exact hal' _
  · rw [add_add]; exact hx.add (by omega)
  refine Opt.runs_pure_eq ?_
  rw [bytesAt18, bytesAt_take _ _ _ _ (by omega)]

theorem runs_ldMsg (e : Env) (s : St) (src : Ptr) (len i : Nat) (hal : Aligned e 0 src len)
    (h : Readable e src len) (hi : 18 * i + 18 ≤ len) :
    Runs (ldMsg (src + 18 * i)) e s (bytesAt s (src + 18 * i) 18) s := by
  have hal' : ∀ al k w, Aligned e al (src + k) w := fun al k w => dvd_zero_al hal (by omega)
  refine runs_bind (runs_load (hal' _ _ _) (h.add (by omega)) (by decide)) ?_
  refine runs_bind (runs_load ?_ ?_ (by decide)) ?_
  · rw [add_add]; exact hal' _ _ _
  · rw [add_add]; exact h.add (by omega)
  refine runs_bind (runs_load ?_ ?_ (by decide)) ?_
  · rw [add_add]; exact hal' _ _ _
  · rw [add_add]; exact h.add (by omega)
  exact Opt.runs_pure_eq (bytesAt18 _ _).symm

theorem primsK128a_ok : PrimsOK primsK128a isapK128a limits where
  wf := KeccakRef.wfK128a
  n := rfl
  r := rfl
  iv _ := rfl
  pH _ _ h := rel_unwords (roundsX_eq (by decide) (by decide)) h
  pB _ _ h := rel_unwords rounds1X_eq h
  pE _ _ h := rel_unwords (roundsX_eq (by decide) (by decide)) h
  pK _ _ h := rel_unwords (roundsX_eq (by decide) (by decide)) h
  al2 := ⟨0, rfl⟩
  ldBlk := runs_ldBlk
  ldMsg := runs_ldMsg

theorem primsK128_ok : PrimsOK primsK128 isapK128 limits where
  wf := KeccakRef.wfK128
  n := rfl
  r := rfl
  iv _ := rfl
  pH _ _ h := rel_unwords (roundsX_eq (by decide) (by decide)) h
  pB _ _ h := rel_unwords (roundsX_eq (by decide) (by decide)) h
  pE _ _ h := rel_unwords (roundsX_eq (by decide) (by decide)) h
  pK _ _ h := rel_unwords (roundsX_eq (by decide) (by decide)) h
  al2 := ⟨0, rfl⟩
  ldBlk := runs_ldBlk
  ldMsg := runs_ldMsg

end Opt64

namespace Avx

/-- The key and the nonce are read by 16-bit loads. -/
def limits : Limits := ⟨2, 1, 2 ^ 64, id⟩

theorem rel_perm {n : Nat} (hn : n ≤ 20) {S T : List Byte} (h : Rel S T) : Rel (perm n S) (Keccak.perm n T) := by
  obtain ⟨h1, h2⟩ := perm_eq hn S
  exact ⟨by omega, by rw [h1, h.2]⟩

theorem runs_ld (e : Env) (s : St) (src : Ptr) (len i : Nat) (h : Readable e src len) (hi : 18 * i + 18 ≤ len) :
    Runs (load 1 18 (src + 18 * i)) e s (bytesAt s (src + 18 * i) 18) s :=
  runs_load (aligned_one _ _ _) (h.add (by omega)) (by decide)

attribute [local irreducible] perm Keccak.perm

theorem prims_ok (j : Junk) : PrimsOK (prims j) isapK128a limits where
  wf := KeccakRef.wfK128a
  n := rfl
  r := rfl
  iv _ := rfl
  pH _ _ h := rel_perm (n := 16) (by decide) h
  pB _ _ h := rel_perm (n := 1) (by decide) h
  pE _ _ h := rel_perm (n := 8) (by decide) h
  pK _ _ h := rel_perm (n := 8) (by decide) h
  al2 := ⟨1, rfl⟩
  ldBlk _ _ _ _ _ _ _ h hi := runs_ld _ _ _ _ _ h hi
  ldMsg _ _ _ _ _ _ h hi := runs_ld _ _ _ _ _ h hi

end Avx

end Model.K128
