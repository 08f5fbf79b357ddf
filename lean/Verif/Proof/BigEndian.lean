import Verif.Test.Fast
import Verif.Proof.Hash
import Verif.Proof.ByteOrder
import Verif.Proof.Bijection
import Verif.Proof.Calls
/-!
# The optimized ISAP-A-128a mode on big-endian platforms

With all lanes reversed and one bit moved, the code does on a big-endian platform what it does on a little-endian one with other
permutations.
-/

namespace Model.Opt.Ord
open C Spec Spec.Ascon

/-! ## Lanes -/

theorem u64big_u64big (x : BitVec 64) : u64big (u64big x) = x := by
  have h := u64big_le64 (toLe64 (u64big x))
  rw [le64_toLe64, toLe64_u64big, ofBe64_be64] at h
  exact h

theorem u64big_xor (x y : BitVec 64) : u64big (x ^^^ y) = u64big x ^^^ u64big y := by
  simp only [u64big_eq, Bits.perm_xor]

theorem u64big_zero : u64big 0 = 0 := by decide +kernel

theorem word_big (B : List Byte) : word .big B = u64big (le64 B) := by
  have h : word .big B = le64 ((List.range 8).map fun i => B.getD (7 - i) 0) := rfl
  rw [h, u64big_le64]
  refine BitVec.eq_of_getLsbD_eq fun i hi => ?_
  rw [getLsbD_le64 _ hi, ofBe64, getLsbD_ofBits]
  simp only [hi, decide_true, Bool.true_and]
  congr 1
  have : ∀ j, j < 8 → ((List.range 8).map fun i => B.getD (7 - i) 0).getD j 0 = B.getD (7 - j) 0 := by
    intro j hj
    simp [List.getD_eq_getElem?_getD, hj]
  exact this _ (by omega)

theorem bytes_big (x : BitVec 64) : bytes .big x = toLe64 (u64big x) := (toLe64_u64big x).symm

theorem u64big_byte {j : Nat} (hj : j < 8) (v : Byte) : u64big (v.setWidth 64 <<< (8 * (7 - j))) = v.setWidth 64 <<< (8 * j) := by
  rw [u64big_eq]
  refine BitVec.eq_of_getLsbD_eq fun i hi => ?_
  rw [Bits.getLsbD_perm _ _ hi]
  simp only [BitVec.getLsbD_shiftLeft, BitVec.getLsbD_setWidth]
  by_cases h : i / 8 = j
  · rw [show 8 * (7 - i / 8) + i % 8 - 8 * (7 - j) = i - 8 * j by omega]
    have h1 : decide (8 * (7 - i / 8) + i % 8 < 64) = decide (i < 64) := by simp only [decide_eq_decide]; omega
    have h2 : decide (8 * (7 - i / 8) + i % 8 < 8 * (7 - j)) = decide (i < 8 * j) := by simp only [decide_eq_decide]; omega
    have h3 : decide (8 * (7 - i / 8) + i % 8 - 8 * (7 - j) < 64) = decide (i - 8 * j < 64) := by
      simp only [decide_eq_decide]; omega
    rw [h1, h2]
  · rcases Nat.lt_or_gt_of_ne h with h | h
    · rw [v.getLsbD_of_ge _ (by omega)]
      have : decide (i < 8 * j) = true := by simp only [decide_eq_true_eq]; omega
      simp [this]
    · rw [v.getLsbD_of_ge (i - 8 * j) (by omega)]
      have : decide (8 * (7 - i / 8) + i % 8 < 8 * (7 - j)) = true := by simp only [decide_eq_true_eq]; omega
      simp [this]

theorem u64big_xorByte (x : BitVec 64) {j : Nat} (hj : j < 8) (v : Byte) :
    u64big (xorByte .big x j v) = Opt.xorByte (u64big x) j v := by
  rw [xorByte, u64big_xor, shiftOf, u64big_byte hj, Opt.xorByte]

theorem byteOf_big (x : BitVec 64) {j : Nat} (hj : j < 8) : byteOf .big x j = Opt.byteOf (u64big x) j := by
  rw [byteOf, Opt.byteOf, shiftOf, u64big_eq]
  refine BitVec.eq_of_getLsbD_eq fun i hi => ?_
  simp only [BitVec.getLsbD_setWidth, BitVec.getLsbD_ushiftRight]
  rw [Bits.getLsbD_perm _ _ (by omega)]
  rw [show 8 * (7 - (8 * j + i) / 8) + (8 * j + i) % 8 = 8 * (7 - j) + i by omega]

/-- All lanes with their bytes reversed. -/
def revS (s : State) : State := rep u64big s

theorem revS_revS (s : State) : revS (revS s) = s := by simp only [revS, rep, u64big_u64big]

/-- The bits 0 and 24 of a lane exchanged. -/
def swapBits (x : BitVec 64) : BitVec 64 := Bits.perm 64 (fun i => if i = 0 then 24 else if i = 24 then 0 else i) x

theorem swapBits_swapBits (x : BitVec 64) : swapBits (swapBits x) = x := by
  unfold swapBits
  rw [Bits.perm_perm (fun i hi => by
    by_cases h0 : i = 0
    · simp [h0]
    · by_cases h1 : i = 24 <;> simp [h0, h1, hi])]
  refine Bits.perm_id (fun i hi => ?_) x
  by_cases h0 : i = 0
  · simp [h0]
  · by_cases h1 : i = 24
    · simp [h1]
    · simp [h0, h1]

theorem swapBits_xor (x y : BitVec 64) : swapBits (x ^^^ y) = swapBits x ^^^ swapBits y := Bits.perm_xor ..

theorem swapBits_zero : swapBits 0 = 0 := by decide +kernel

/-- The bit that separates associated data and ciphertext moved to its place. -/
def swp (s : State) : State := { s with x4 := swapBits s.x4 }

theorem swp_swp (s : State) : swp (swp s) = s := by simp only [swp, swapBits_swapBits]

/-- From the state on a big-endian platform to the state on a little-endian one. -/
def Ψ (s : State) : State := swp (revS s)

/-- The inverse of `Ψ`. -/
def Ψ' (s : State) : State := revS (swp s)

theorem Ψ'_Ψ (s : State) : Ψ' (Ψ s) = s := by rw [Ψ', Ψ, swp_swp, revS_revS]
theorem Ψ_Ψ' (s : State) : Ψ (Ψ' s) = s := by rw [Ψ', Ψ, revS_revS, swp_swp]

theorem Ψ_xorOne (s : State) : Ψ (xorOne .big s) = { Ψ s with x4 := (Ψ s).x4 ^^^ 1 } := by
  simp only [Ψ, xorOne, revS, rep, swp, u64big_xor, swapBits_xor]
  rw [show swapBits (u64big (1 <<< 32)) = 1 by decide +kernel]

theorem Ψ_xorTop (s : State) (v : Byte) : Ψ (xorTop .big s v) = Opt.xorTop (Ψ s) v := by
  simp only [Ψ, xorTop, revS, rep, swp, Opt.xorTop, u64big_xorByte _ (by decide : 7 < 8)]

/-! ## The mode -/

variable (D : Prims)

/-- What the macros do, seen from a little-endian platform. -/
def revPrims : Prims where
  toWord x := u64big (D.toWord (u64big x))
  fromWord x := u64big (D.fromWord (u64big x))
  toBI x := u64big (D.toBI (u64big x))
  pH s := D.pH (Ψ' s) >>= fun t => pure (Ψ t)
  pB s := D.pB (Ψ' s) >>= fun t => pure (Ψ t)
  pE s := D.pE (revS s) >>= fun t => pure (revS t)
  pK s := D.pK (Ψ' s) >>= fun t => pure (Ψ t)

theorem pure_bind' {α β : Type} (a : α) (f : α → CM β) : (pure a : CM α) >>= f = f a := rfl

theorem bind_pure' {α : Type} (f : CM α) : (f >>= fun a => pure a) = f := by
  show CM.bind f (fun a => CM.ret a) = f
  induction f with
  | ret a => rfl
  | ub u => rfl
  | load al w p k ih => simp only [CM.bind, ih]
  | store al p bs k ih => simp only [CM.bind, ih]
  | branch b k ih => simp only [CM.bind, ih]
  | getg x k ih => simp only [CM.bind, ih]
  | setg x v k ih => simp only [CM.bind, ih]

theorem forN_map {σ τ : Type} (ψ : σ → τ) {f : Nat → σ → CM σ} {g : Nat → τ → CM τ} (n i : Nat)
    (h : ∀ j x, i ≤ j → j < i + n → g j (ψ x) = f j x >>= fun y => pure (ψ y)) (x : σ) :
    forN n i g (ψ x) = forN n i f x >>= fun y => pure (ψ y) := by
  induction n generalizing i x with
  | zero => rfl
  | succ n ih =>
    simp only [forN, bind_assoc']
    rw [h i x (Nat.le_refl _) (by omega)]
    simp only [bind_assoc', pure_bind']
    congr 1; funext _; congr 1; funext y
    exact ih (i + 1) (fun j x h1 h2 => h j x (by omega) (by omega)) y

theorem load64_rev (p : Ptr) {α : Type} (k : BitVec 64 → CM α) :
    (load64In .big p >>= k) = load64 p >>= fun x => k (u64big x) := by
  simp only [load64In, load64, bind_assoc', pure_bind', word_big]

theorem rev_pH (s : State) : (revPrims D).pH (Ψ s) = D.pH s >>= fun t => pure (Ψ t) := by
  show D.pH (Ψ' (Ψ s)) >>= _ = _; rw [Ψ'_Ψ]
theorem rev_pB (s : State) : (revPrims D).pB (Ψ s) = D.pB s >>= fun t => pure (Ψ t) := by
  show D.pB (Ψ' (Ψ s)) >>= _ = _; rw [Ψ'_Ψ]
theorem rev_pK (s : State) : (revPrims D).pK (Ψ s) = D.pK s >>= fun t => pure (Ψ t) := by
  show D.pK (Ψ' (Ψ s)) >>= _ = _; rw [Ψ'_Ψ]
theorem rev_pE (s : State) : (revPrims D).pE (revS s) = D.pE s >>= fun t => pure (revS t) := by
  show D.pE (revS (revS s)) >>= _ = _; rw [revS_revS]

theorem Ψ_x0 (s : State) (w : BitVec 64) : { Ψ s with x0 := (Ψ s).x0 ^^^ u64big w } = Ψ { s with x0 := s.x0 ^^^ w } := by
  simp only [Ψ, revS, rep, swp, u64big_xor]

theorem Ψ_init (a b c : BitVec 64) : (⟨u64big a, u64big b, u64big c, 0, 0⟩ : State) = Ψ ⟨a, b, c, 0, 0⟩ := by
  simp only [Ψ, revS, rep, swp, u64big_zero, swapBits_zero]

theorem absorbTail_rev (s : State) (src : Ptr) (len : Nat) :
    Opt.absorbTail (revPrims D) (Ψ s) src len = absorbTail .big D s src len >>= fun t => pure (Ψ t) := by
  simp only [Opt.absorbTail, absorbTail, bind_assoc']
  congr 1; funext b
  cases b
  · simp only [Bool.false_eq_true, if_false]
    rw [← Ψ_xorTop, rev_pH]
  · simp only [if_true, bind_assoc']
    have h := forN_map u64big (f := fun i (t0 : BitVec 64) => do
        let d ← load8 (src + i)
        pure (xorByte .big t0 (7 - i) d)) (g := fun i (t0 : BitVec 64) => do
        let d ← load8 (src + i)
        pure (Opt.xorByte t0 (7 - i) d)) len 0 (fun j x _ _ => by
          simp only [bind_assoc', pure_bind', u64big_xorByte _ (show 7 - j < 8 by omega)]) 0
    rw [u64big_zero] at h
    rw [h]
    simp only [bind_assoc', pure_bind']
    congr 1; funext t
    rw [← u64big_xorByte _ (by omega)]
    show (revPrims D).pH { Ψ s with x0 := (Ψ s).x0 ^^^ u64big (D.toBI (u64big (u64big (xorByte .big t (7 - len) 0x80)))) } = _
    rw [u64big_u64big, Ψ_x0, rev_pH]

theorem absorbLanes_rev (s : State) (src : Ptr) (len : Nat) :
    Opt.absorbLanes (revPrims D) (Ψ s) src len = absorbLanes .big D s src len >>= fun t => pure (Ψ t) := by
  simp only [Opt.absorbLanes, absorbLanes, bind_assoc', whileGe_eq]
  have h := forN_map Ψ (f := fun i (s : State) => do
      let t0 ← load64In .big (src + 8 * i)
      D.pH { s with x0 := s.x0 ^^^ D.toWord t0 }) (g := fun i (s : State) => do
      let t0 ← load64 (src + 8 * i)
      (revPrims D).pH { s with x0 := s.x0 ^^^ (revPrims D).toWord t0 }) (len / 8) 0 (fun j x _ _ => by
        rw [load64_rev, bind_assoc']
        congr 1; funext t
        show (revPrims D).pH { Ψ x with x0 := (Ψ x).x0 ^^^ u64big (D.toWord (u64big t)) } = _
        rw [Ψ_x0, rev_pH]) s
  rw [h]
  simp only [bind_assoc', pure_bind', absorbTail_rev]

theorem bind_congr' {α β : Type} (f : CM α) {g h : α → CM β} (e : ∀ a, g a = h a) : f >>= g = f >>= h := by
  rw [show g = h from funext e]

theorem pB_rev (s : State) (v : Byte) {α : Type} (k : State → CM α) :
    ((revPrims D).pB (Opt.xorTop (Ψ s) v) >>= k) = D.pB (xorTop .big s v) >>= fun t => k (Ψ t) := by
  rw [← Ψ_xorTop, rev_pB, bind_assoc']
  rfl

theorem rkStep_rev (y : Src) (i : Nat) (s : State) :
    Opt.rkStep (revPrims D) y i (Ψ s) = rkStep .big D y i s >>= fun t => pure (Ψ t) := by
  unfold Opt.rkStep rkStep
  rw [bind_assoc']
  refine bind_congr' _ fun yb => ?_
  rw [pB_rev, bind_assoc']
  refine bind_congr' _ fun s => ?_
  rw [pB_rev, bind_assoc']
  refine bind_congr' _ fun s => ?_
  rw [pB_rev, bind_assoc']
  refine bind_congr' _ fun s => ?_
  rw [pB_rev, bind_assoc']
  refine bind_congr' _ fun s => ?_
  rw [pB_rev, bind_assoc']
  refine bind_congr' _ fun s => ?_
  rw [pB_rev, bind_assoc']
  refine bind_congr' _ fun s => ?_
  rw [pB_rev, bind_assoc']
  refine bind_congr' _ fun s => ?_
  rw [← Ψ_xorTop, bind_assoc']
  refine bind_congr' _ fun b => ?_
  cases b
  · simp only [Bool.false_eq_true, if_false, pure_bind']
  · simp only [if_true, rev_pB]

theorem isapRk_rev (k : Ptr) (iv : List Byte) (y : Src) (out : State) (outlen : Nat) :
    Opt.isapRk (revPrims D) k iv y (Ψ out) outlen = isapRk .big D k iv y out outlen >>= fun t => pure (Ψ t) := by
  simp only [Opt.isapRk, isapRk, bind_assoc', load64_rev]
  refine bind_congr' _ fun k0 => ?_
  refine bind_congr' _ fun k1 => ?_
  show (revPrims D).pK ⟨u64big (D.toWord (u64big k0)), u64big (D.toWord (u64big k1)), u64big (D.toWord (u64big (le64 iv))), 0, 0⟩
    >>= _ = _
  rw [Ψ_init, rev_pK, word_big]
  simp only [bind_assoc', pure_bind']
  refine bind_congr' _ fun s => ?_
  rw [forN_map Ψ (f := rkStep .big D y) 16 0 (fun j x _ _ => rkStep_rev D y j x)]
  simp only [bind_assoc', pure_bind', rev_pK]
  refine bind_congr' _ fun s => ?_
  refine bind_congr' _ fun s => ?_
  simp only [rkOut, bind_assoc']
  refine bind_congr' _ fun b => ?_
  cases b
  · simp only [Bool.false_eq_true, if_false, pure_bind']; rfl
  · simp only [if_true, pure_bind']; rfl

theorem macAbsorb_rev (npub ad : Ptr) (adlen : Nat) (c : Ptr) (clen : Nat) :
    Opt.macAbsorb (revPrims D) npub ad adlen c clen = macAbsorb .big D npub ad adlen c clen >>= fun t => pure (Ψ t) := by
  simp only [Opt.macAbsorb, macAbsorb, bind_assoc', load64_rev]
  refine bind_congr' _ fun n0 => ?_
  refine bind_congr' _ fun n1 => ?_
  show (revPrims D).pH ⟨u64big (D.toWord (u64big n0)), u64big (D.toWord (u64big n1)), u64big (D.toWord (u64big (le64 (iv 1)))),
    0, 0⟩ >>= _ = _
  rw [Ψ_init, rev_pH, word_big]
  simp only [bind_assoc', pure_bind', absorbLanes_rev]
  refine bind_congr' _ fun s => ?_
  refine bind_congr' _ fun s => ?_
  rw [← Ψ_xorOne, absorbLanes_rev]

theorem isapMac_rev (k npub ad : Ptr) (adlen : Nat) (c : Ptr) (clen : Nat) :
    Opt.isapMac (revPrims D) k npub ad adlen c clen = isapMac .big D k npub ad adlen c clen := by
  simp only [Opt.isapMac, isapMac, macAbsorb_rev, bind_assoc', pure_bind']
  refine bind_congr' _ fun s => ?_
  have h0 : (revPrims D).fromWord (Ψ s).x0 = u64big (D.fromWord s.x0) := by
    show u64big (D.fromWord (u64big (u64big s.x0))) = _; rw [u64big_u64big]
  have h1 : (revPrims D).fromWord (Ψ s).x1 = u64big (D.fromWord s.x1) := by
    show u64big (D.fromWord (u64big (u64big s.x1))) = _; rw [u64big_u64big]
  rw [h0, h1]
  have hs : ({ Ψ s with x0 := u64big (D.fromWord s.x0), x1 := u64big (D.fromWord s.x1) } : State) =
      Ψ { s with x0 := D.fromWord s.x0, x1 := D.fromWord s.x1 } := rfl
  rw [hs, isapRk_rev, bytes_big, bytes_big]
  simp only [bind_assoc', pure_bind', rev_pH, bytes_big]
  refine bind_congr' _ fun s => ?_
  refine bind_congr' _ fun s => ?_
  show pure (toLe64 (u64big (D.fromWord (u64big (u64big s.x0)))) ++ toLe64 (u64big (D.fromWord (u64big (u64big s.x1))))) = _
  rw [u64big_u64big, u64big_u64big]

theorem encTail_rev (s : State) (m : Ptr) (mlen : Nat) (hl : mlen ≤ 8) (c : Ptr) :
    Opt.encTail (revPrims D) (revS s) m mlen c = encTail .big D s m mlen c := by
  simp only [Opt.encTail, encTail, ifThen]
  refine bind_congr' _ fun b => ?_
  cases b
  · rfl
  · simp only [if_true, rev_pE, bind_assoc', pure_bind']
    refine bind_congr' _ fun s => ?_
    have h0 : (revPrims D).fromWord (revS s).x0 = u64big (D.fromWord s.x0) := by
      show u64big (D.fromWord (u64big (u64big s.x0))) = _; rw [u64big_u64big]
    rw [h0]
    have h := forN_map (fun (u : Unit) => u) (f := fun i (_ : Unit) => do
        let d ← load8 (m + i)
        store8 (c + i) (d ^^^ byteOf .big (D.fromWord s.x0) i)) (g := fun i (_ : Unit) => do
        let d ← load8 (m + i)
        store8 (c + i) (d ^^^ Opt.byteOf (u64big (D.fromWord s.x0)) i)) mlen 0 (fun j x _ h => by
          rw [bind_pure']
          simp only [byteOf_big _ (show j < 8 by omega)]) ()
    rw [bind_pure'] at h
    exact h

theorem isapEnc_rev (k npub m : Ptr) (mlen : Nat) (c : Ptr) :
    Opt.isapEnc (revPrims D) k npub m mlen c = isapEnc .big D k npub m mlen c := by
  have hz : (⟨0, 0, 0, 0, 0⟩ : State) = Ψ ⟨0, 0, 0, 0, 0⟩ := by
    simp only [Ψ, revS, rep, swp, u64big_zero, swapBits_zero]
  unfold Opt.isapEnc isapEnc
  rw [show Opt.isapRk (revPrims D) k (iv 3) (.ext npub) ⟨0, 0, 0, 0, 0⟩ 24 =
    Opt.isapRk (revPrims D) k (iv 3) (.ext npub) (Ψ ⟨0, 0, 0, 0, 0⟩) 24 by rw [← hz], isapRk_rev, bind_assoc']
  refine bind_congr' _ fun s => ?_
  rw [pure_bind', load64_rev]
  refine bind_congr' _ fun n0 => ?_
  rw [load64_rev]
  refine bind_congr' _ fun n1 => ?_
  have hs : ({ Ψ s with x3 := (revPrims D).toWord n0, x4 := (revPrims D).toWord n1 } : State) =
      revS { s with x3 := D.toWord (u64big n0), x4 := D.toWord (u64big n1) } := rfl
  rw [hs]
  dsimp only
  rw [whileGe_eq, whileGe_eq]
  have hf := forN_map revS (f := fun i (s : State) => do
      let s ← D.pE s
      let t0 := D.fromWord s.x0
      let d ← load64In .big (m + 8 * i)
      store64In .big (c + 8 * i) (d ^^^ t0)
      pure s) (g := fun i (s : State) => do
      let s ← (revPrims D).pE s
      let t0 := (revPrims D).fromWord s.x0
      let d ← load64 (m + 8 * i)
      store64 (c + 8 * i) (d ^^^ t0)
      pure s) (mlen / 8) 0 (fun j x _ _ => by
        rw [rev_pE, bind_assoc', bind_assoc']
        refine bind_congr' _ fun s => ?_
        rw [pure_bind', load64_rev, bind_assoc']
        refine bind_congr' _ fun d => ?_
        have h0 : (revPrims D).fromWord (revS s).x0 = u64big (D.fromWord s.x0) := by
          show u64big (D.fromWord (u64big (u64big s.x0))) = _; rw [u64big_u64big]
        rw [h0, store64In, bytes_big, u64big_xor, u64big_u64big]
        rfl) { s with x3 := D.toWord (u64big n0), x4 := D.toWord (u64big n1) }
  dsimp only at hf
  rw [hf, bind_assoc']
  refine bind_congr' _ fun s => ?_
  rw [pure_bind']
  exact encTail_rev D s (m + 8 * (mlen / 8)) (mlen % 8) (by omega) (c + 8 * (mlen / 8))

/-- On a big-endian platform the code is that of a little-endian one with other macros. -/
theorem impl_big : impl .big D = Opt.impl (revPrims D) := by
  have h1 : isapEnc .big D = Opt.isapEnc (revPrims D) := by
    funext k npub m mlen c; exact (isapEnc_rev D k npub m mlen c).symm
  have h2 : isapMac .big D = Opt.isapMac (revPrims D) := by
    funext k npub ad adlen c clen; exact (isapMac_rev D k npub ad adlen c clen).symm
  unfold impl Opt.impl
  rw [h1, h2]

theorem cryptoHash_big (out inp : Ptr) (inlen : Nat) :
    Opt.cryptoHash (revPrims D) out inp inlen = cryptoHash .big D out inp inlen := by
  have hz := Ψ_init (D.toWord (u64big (le64 hashIV))) 0 0
  rw [u64big_zero] at hz
  unfold Opt.cryptoHash cryptoHash
  rw [show (⟨(revPrims D).toWord (le64 hashIV), 0, 0, 0, 0⟩ : State) = Ψ ⟨D.toWord (u64big (le64 hashIV)), 0, 0, 0, 0⟩ from hz,
    rev_pH, word_big, bind_assoc']
  refine bind_congr' _ fun s => ?_
  rw [pure_bind', absorbLanes_rev, bind_assoc']
  refine bind_congr' _ fun s => ?_
  rw [pure_bind', forN_map Ψ (f := squeezeStep .big D out) 4 0 (fun j x _ _ => ?_), bind_assoc']
  · rfl
  · unfold Opt.squeezeStep squeezeStep
    have h0 : (revPrims D).fromWord (Ψ x).x0 = u64big (D.fromWord x.x0) := by
      show u64big (D.fromWord (u64big (u64big x.x0))) = _; rw [u64big_u64big]
    rw [h0, store64In, bytes_big, bind_assoc']
    refine bind_congr' _ fun _ => ?_
    rw [bind_assoc']
    refine bind_congr' _ fun b => ?_
    cases b
    · rfl
    · simp only [if_true, rev_pH]

/-- What the permutations `g` of the code on a big-endian platform are, seen from a little-endian one. -/
def bigQ (g : Nat → State → State) (n : Nat) (S : State) : State :=
  if n = 6 then revS (g n (revS S)) else Ψ (g n (Ψ' S))

theorem repOK_rev {D : Prims} {g : Nat → State → State} (ht : D.toWord = u64big) (hf : D.fromWord = u64big) (hb : D.toBI = id)
    (hH : ∀ (e : Env) (s : St) S, Runs (D.pH S) e s (g 12 S) s) (hB : ∀ (e : Env) (s : St) S, Runs (D.pB S) e s (g 1 S) s)
    (hE : ∀ (e : Env) (s : St) S, Runs (D.pE S) e s (g 6 S) s) (hK : ∀ (e : Env) (s : St) S, Runs (D.pK S) e s (g 12 S) s) :
    RepOK (revPrims D) id (bigQ g) where
  toWord B _ := by
    show u64big (D.toWord (u64big (le64 B))) = _
    rw [ht, u64big_u64big, u64big_le64]; rfl
  fromWord w := by
    show toLe64 (u64big (D.fromWord (u64big w))) = _
    rw [hf, u64big_u64big, toLe64_u64big]
  toBI w := by
    show u64big (D.toBI (u64big w)) = _
    rw [hb]
    exact u64big_u64big w
  xor _ _ := rfl
  top := rfl
  one := rfl
  pH e s S := runs_eq (runs_bind (hH e s (Ψ' S)) (runs_pure _ _ _)) rfl
  pB e s S := runs_eq (runs_bind (hB e s (Ψ' S)) (runs_pure _ _ _)) rfl
  pE e s S := runs_eq (runs_bind (hE e s (revS S)) (runs_pure _ _ _)) rfl
  pK e s S := runs_eq (runs_bind (hK e s (Ψ' S)) (runs_pure _ _ _)) rfl

/-! ## The permutation of opt_8 -/

namespace Opt8

theorem u64big_setByte (x : BitVec 64) {j : Nat} (hj : j < 8) (v : Byte) :
    setByte .big (u64big x) j v = u64big (Opt.Opt8.setByte x j v) := by
  have h : ∀ w : Byte, w.setWidth 64 <<< (8 * (7 - j)) = u64big (w.setWidth 64 <<< (8 * j)) := by
    intro w
    rw [← u64big_byte hj, u64big_u64big]
  have hff : 0xff#64 <<< (8 * (7 - j)) = u64big (0xff#64 <<< (8 * j)) := h 0xff
  simp only [setByte, Opt.Opt8.setByte, shiftOf, h, hff, u64big_eq, Bits.perm_or, Bits.perm_and]
  rw [Bits.perm_not (by intro i hi; omega)]

theorem byteOf_rev (x : BitVec 64) {j : Nat} (hj : j < 8) : byteOf .big (u64big x) j = Opt.byteOf x j := by
  rw [byteOf_big _ hj, u64big_u64big]

theorem xorByte_rev (x : BitVec 64) {j : Nat} (hj : j < 8) (v : Byte) :
    xorByte .big (u64big x) j v = u64big (Opt.xorByte x j v) := by
  rw [← u64big_u64big (xorByte .big (u64big x) j v), u64big_xorByte _ hj, u64big_u64big]

theorem foldl_map {α β γ : Type} (ψ : α → β) {f : α → γ → α} {g : β → γ → β} (l : List γ)
    (h : ∀ c ∈ l, ∀ a, g (ψ a) c = ψ (f a c)) (a : α) : l.foldl g (ψ a) = ψ (l.foldl f a) := by
  induction l generalizing a with
  | nil => rfl
  | cons c l ih =>
    rw [List.foldl_cons, List.foldl_cons, h c (List.mem_cons_self ..)]
    exact ih (fun c hc => h c (List.mem_cons_of_mem _ hc)) _

theorem and7 (n : Nat) : n &&& 7 < 8 := Nat.lt_succ_of_le Nat.and_le_right

theorem ror_rev (x : BitVec 64) (n : Nat) : ror .big (u64big x) n = u64big (Opt.Opt8.ror x n) := by
  unfold ror Opt.Opt8.ror
  rw [show (0 : BitVec 64) = u64big 0 from u64big_zero.symm]
  refine (foldl_map u64big _ (fun i hi b => ?_) 0).trans (by rw [u64big_zero])
  have hi8 : i < 8 := by simpa using hi
  simp only [xmul, Opt.Opt8.xmul, byteOf_rev _ hi8, xorByte_rev _ (and7 _)]

theorem nonlinear_rev (s : State × BitVec 64) {pos : Nat} (h : pos < 8) :
    nonlinear .big (revS s.1, u64big s.2) pos = (revS (Opt.Opt8.nonlinear s pos).1, u64big (Opt.Opt8.nonlinear s pos).2) := by
  simp only [nonlinear, Opt.Opt8.nonlinear, revS, rep, byteOf_rev _ h, u64big_setByte _ h]

theorem linear_rev (s : State) (x : BitVec 64) : linear .big (revS s) (u64big x) = revS (Opt.Opt8.linear s x) := by
  simp only [linear, Opt.Opt8.linear, revS, rep, ror_rev, ← u64big_xor]

/-- `LINEAR_LAYER` on the result of the loop. -/
def linear' (r : State × BitVec 64) : State := Opt.Opt8.linear r.1 r.2

theorem round_rev (s : State) (c : Byte) : round .big (revS s) c = revS (Opt.Opt8.round s c) := by
  unfold round Opt.Opt8.round
  have h : (List.range 8).foldl (nonlinear .big) (revS { s with x2 := Opt.xorByte s.x2 0 c }, u64big 0) =
      (fun t : State × BitVec 64 => (revS t.1, u64big t.2))
        ((List.range 8).foldl Opt.Opt8.nonlinear ({ s with x2 := Opt.xorByte s.x2 0 c }, 0)) :=
    foldl_map (fun t : State × BitVec 64 => (revS t.1, u64big t.2)) (List.range 8)
      (fun i hi t => nonlinear_rev t (by simpa using hi)) ({ s with x2 := Opt.xorByte s.x2 0 c }, 0)
  have h2 : ({ revS s with x2 := xorByte .big (revS s).x2 0 c } : State) = revS { s with x2 := Opt.xorByte s.x2 0 c } := by
    simp only [revS, rep, xorByte_rev _ (by decide : 0 < 8)]
  rw [u64big_zero] at h
  have key : ∀ a b : State, a = b → (List.range 8).foldl (nonlinear .big) (b, 0) =
      (revS ((List.range 8).foldl Opt.Opt8.nonlinear ({ s with x2 := Opt.xorByte s.x2 0 c }, 0)).1,
        u64big ((List.range 8).foldl Opt.Opt8.nonlinear ({ s with x2 := Opt.xorByte s.x2 0 c }, 0)).2) →
      linear .big ((List.range 8).foldl (nonlinear .big) (a, 0)).1 ((List.range 8).foldl (nonlinear .big) (a, 0)).2 =
      revS (linear' ((List.range 8).foldl Opt.Opt8.nonlinear ({ s with x2 := Opt.xorByte s.x2 0 c }, 0))) := by
    intro a b hab hb
    rw [hab, hb, linear_rev]; rfl
  exact key _ _ h2 h

theorem seqRounds_rev (cs : List Byte) (s : State) :
    seqRounds (round .big) cs (revS s) = revS (seqRounds Opt.Opt8.round cs s) :=
  foldl_map revS cs (fun c _ s => round_rev s c) s

theorem switch_rev (n : Nat) (s : State) : switchRounds (round .big) c12 c6 c1 n (revS s) =
    switchRounds Opt.Opt8.round c12 c6 c1 n s >>= fun t => pure (revS t) := by
  unfold switchRounds
  rw [bind_assoc']
  refine bind_congr' _ fun b => ?_
  cases b
  · simp only [Bool.false_eq_true, if_false]
    rw [bind_assoc']
    refine bind_congr' _ fun b => ?_
    cases b
    · simp only [Bool.false_eq_true, if_false, seqRounds_rev, pure_bind']
    · simp only [if_true, seqRounds_rev, pure_bind']
  · simp only [if_true, seqRounds_rev, pure_bind']

theorem tinyLoop_rev (fuel : Nat) (i : Int) (s : State) : tinyLoop (round .big) fuel i (revS s) =
    tinyLoop Opt.Opt8.round fuel i s >>= fun t => pure (revS t) := by
  induction fuel generalizing i s with
  | zero => rfl
  | succ fuel ih =>
    unfold tinyLoop
    simp only [round_rev]
    rw [bind_assoc']
    refine bind_congr' _ fun b => ?_
    cases b
    · rfl
    · simp only [if_true, ih]

theorem tiny_rev (n : Nat) (s : State) : tinyRounds (round .big) n (revS s) =
    tinyRounds Opt.Opt8.round n s >>= fun t => pure (revS t) := tinyLoop_rev ..

/-- The permutation of opt_8 on a big-endian platform: that of the specification, on reversed lanes. -/
def revP (n : Nat) (S : State) : State := revS (p n (revS S))

theorem runs_rev {f g : State → CM State} (h : ∀ S, f (revS S) = g S >>= fun t => pure (revS t)) {n : Nat}
    (hg : ∀ (e : Env) (s : St) S, Runs (g S) e s (p n S) s) (e : Env) (s : St) (S : State) : Runs (f S) e s (revP n S) s := by
  rw [← revS_revS S, h]
  refine runs_eq (runs_bind (hg e s (revS S)) (runs_pure _ _ _)) ?_
  rw [revP, revS_revS]

theorem repOK_big : RepOK (revPrims (prims .big)) id (bigQ revP) :=
  repOK_rev rfl rfl rfl (runs_rev (switch_rev 12) Opt.Opt8.repOK.pH) (runs_rev (switch_rev 1) Opt.Opt8.repOK.pB)
    (runs_rev (switch_rev 6) Opt.Opt8.repOK.pE) (runs_rev (switch_rev 12) Opt.Opt8.repOK.pK)

theorem repOKTiny_big : RepOK (revPrims (primsTiny .big)) id (bigQ revP) :=
  repOK_rev rfl rfl rfl (runs_rev (tiny_rev 12) Opt.Opt8.repOKTiny.pH) (runs_rev (tiny_rev 1) Opt.Opt8.repOKTiny.pB)
    (runs_rev (tiny_rev 6) Opt.Opt8.repOKTiny.pE) (runs_rev (tiny_rev 12) Opt.Opt8.repOKTiny.pK)

end Opt8

end Model.Opt.Ord

namespace Model.PortableA
open C Spec Spec.Ascon Model.Opt.Ord
open Model.Opt (PQ RepOK)

/-- The permutations of the code on a big-endian platform. -/
def bigPerms : PortableA → Nat → Ascon.State → Ascon.State
  | .opt64 | .opt32 | .opt32Compact | .opt32Tiny => p
  | .opt8 | .opt8Tiny => Opt8.revP

/-- The permutations that take the place of the Ascon permutation. -/
def q (v : PortableA) : ByteOrder → Nat → Ascon.State → Ascon.State
  | .little => p
  | .big => bigQ v.bigPerms

/-- Both functions of the implementation. -/
structure MacEnc (P : Params) (I : Impl) : Prop where
  mac : MacOK P .byWords I.mac
  enc : EncOK P .byWords I.enc

theorem macEnc_opt {D : Opt.Prims} {g : Nat → Ascon.State → Ascon.State} (O : RepOK D id g) : MacEnc (PQ g) (Opt.impl D) :=
  ⟨Opt.macOK O, Opt.encOK O⟩

theorem macEnc_big {D : Opt.Prims} {g : Nat → Ascon.State → Ascon.State} (O : RepOK (revPrims D) id (bigQ g)) :
    MacEnc (PQ (bigQ g)) (Opt.Ord.impl .big D) := by
  rw [impl_big]
  exact macEnc_opt O

theorem repOK_words {D : Opt.Prims} (O : RepOK D id p) (h1 : D.toWord = Opt.u64big) (h2 : D.fromWord = Opt.u64big)
    (h3 : D.toBI = id) : RepOK (revPrims D) id (bigQ p) :=
  repOK_rev h1 h2 h3 O.pH O.pB O.pE O.pK

theorem macEnc_words {D : Opt.Prims} (O : RepOK D id p) (h1 : D.toWord = Opt.u64big) (h2 : D.fromWord = Opt.u64big)
    (h3 : D.toBI = id) : MacEnc (PQ (bigQ p)) (Opt.Ord.impl .big D) :=
  macEnc_big (repOK_words O h1 h2 h3)

theorem repOK_little (v : PortableA) : RepOK (v.prims .little) id p :=
  match v with
  | .opt64 => Opt.Opt64.repOK
  | .opt32 => Opt.Opt32.repOK
  | .opt32Compact => Opt.Opt32.repOKCompact
  | .opt32Tiny => Opt.Opt32.repOKTiny
  | .opt8 => Opt.Opt8.repOK
  | .opt8Tiny => Opt.Opt8.repOKTiny

theorem macEnc (v : PortableA) (o : ByteOrder) : MacEnc (PQ (v.q o)) (Opt.Ord.impl o (v.prims o)) :=
  match o, v with
  | .little, v => by
    have h := macEnc_opt v.repOK_little
    rw [← Opt.Ord.impl_little] at h
    exact h
  | .big, .opt64 => macEnc_words Opt.Opt64.repOK rfl rfl rfl
  | .big, .opt32 => macEnc_words Opt.Opt32.repOK rfl rfl rfl
  | .big, .opt32Compact => macEnc_words Opt.Opt32.repOKCompact rfl rfl rfl
  | .big, .opt32Tiny => macEnc_words Opt.Opt32.repOKTiny rfl rfl rfl
  | .big, .opt8 => macEnc_big Opt8.repOK_big
  | .big, .opt8Tiny => macEnc_big Opt8.repOKTiny_big

theorem runs_hash (v : PortableA) (o : ByteOrder) {e : Env} {a : HashArgs} (hal : AlignedHash e a) (V : ValidHash e a) (s : St) :
    Runs (v.hash o a.out a.inp a.inlen) e s 0 (putBytes s a.out (hashQ (v.q o) (bytesAt s a.inp a.inlen))) := by
  have key : ∀ {D : Opt.Prims} {g : Nat → Ascon.State → Ascon.State}, RepOK (revPrims D) id (bigQ g) →
      Runs (Opt.Ord.cryptoHash .big D a.out a.inp a.inlen) e s 0 (putBytes s a.out (hashQ (bigQ g) (bytesAt s a.inp a.inlen))) := by
    intro D g O
    rw [← cryptoHash_big]
    exact Opt.runs_cryptoHash O hal V
  match o, v with
  | .little, v => exact Opt.runs_cryptoHash v.repOK_little hal V
  | .big, .opt64 => exact key (repOK_words Opt.Opt64.repOK rfl rfl rfl)
  | .big, .opt32 => exact key (repOK_words Opt.Opt32.repOK rfl rfl rfl)
  | .big, .opt32Compact => exact key (repOK_words Opt.Opt32.repOKCompact rfl rfl rfl)
  | .big, .opt32Tiny => exact key (repOK_words Opt.Opt32.repOKTiny rfl rfl rfl)
  | .big, .opt8 => exact key Opt8.repOK_big
  | .big, .opt8Tiny => exact key Opt8.repOKTiny_big

end Model.PortableA

/-! ## What opt_8 computes -/

namespace Model.Opt.Ord.Opt8
open C Spec Spec.Ascon

theorem bigQ_revP (n : Nat) (S : State) : bigQ revP n S = if n = 6 then p n S else swp (p n (swp S)) := by
  unfold bigQ revP Ψ Ψ'
  split
  · rw [revS_revS, revS_revS]
  · rw [revS_revS, revS_revS]

theorem bigQ_swp {n : Nat} (h : n ≠ 6) (S : State) : bigQ revP n (swp S) = swp (p n S) := by
  rw [bigQ_revP, if_neg h, swp_swp]

theorem swp_init (K v : List Byte) : swp (initW K v) = initW K v := by
  simp only [swp, initW, swapBits_zero]

theorem rkW_eq (K N : List Byte) (i : Nat) :
    rkW (bigQ revP) (PQ (bigQ revP)) K ((PQ (bigQ revP)).iv i) N = swp (rkW p isapA128a K (isapA128a.iv i) N) := by
  have hs : ∀ S n, rkSt (bigQ revP) 1 (swp S) N n = swp (rkSt p 1 S N n) := by
    intro S n
    induction n with
    | zero => rfl
    | succ n ih =>
      rw [rkSt, rkSt, ih]
      exact bigQ_swp (by decide) (xorBit (rkSt p 1 S N n) (ybit N n))
  show bigQ revP 12 (xorBit (rkSt (bigQ revP) 1 (bigQ revP 12 (initW K (isapA128a.iv i))) N 127) (ybit N 127)) =
    swp (p 12 (xorBit (rkSt p 1 (p 12 (initW K (isapA128a.iv i))) N 127) (ybit N 127)))
  rw [← swp_init K, bigQ_swp (by decide), hs, swp_init]
  exact bigQ_swp (by decide) (xorBit (rkSt p 1 (p 12 (initW K (isapA128a.iv i))) N 127) (ybit N 127))

theorem take24_swp (S : State) : (toBytes (swp S)).take 24 = (toBytes S).take 24 := by
  have h : ∀ T : State, (toBytes T).take 24 = be64 T.x0 ++ be64 T.x1 ++ be64 T.x2 := by
    intro T
    have : toBytes T = (be64 T.x0 ++ be64 T.x1 ++ be64 T.x2) ++ (be64 T.x3 ++ be64 T.x4) := by simp [toBytes]
    rw [this, List.take_left' (by simp)]
  rw [h, h]
  rfl

theorem enc_eq {K N : List Byte} (hK : K.length = 16) (hN : N.length = 16) (M : List Byte) :
    (PQ (bigQ revP)).enc K N M = isapA128a.enc K N M := by
  have hi : (PQ (bigQ revP)).encInit K N = isapA128a.encInit K N := by
    have A : IsAscon p isapA128a := ⟨rfl, rfl, rfl⟩
    show (PQ (bigQ revP)).rk K ((PQ (bigQ revP)).iv 3) N 24 ++ N = isapA128a.rk K (isapA128a.iv 3) N 24 ++ N
    rw [(isAscon (q := bigQ revP)).rk_words 3 24 hK hN, A.rk_words 3 24 hK hN, rkW_eq, take24_swp]
  have hp : (PQ (bigQ revP)).pE = isapA128a.pE := by
    funext b
    show toBytes (bigQ revP 6 (ofBytes b)) = toBytes (p 6 (ofBytes b))
    rw [bigQ_revP, if_pos rfl]
  unfold Params.enc Params.keystream
  rw [hi, hp]

theorem hash_eq (M : List Byte) : hashQ (bigQ revP) M = AsconHash.hash M := by
  have ha : ∀ S n, absW (bigQ revP) 12 (swp S) M n = swp (absW p 12 S M n) := by
    intro S n
    induction n with
    | zero => rfl
    | succ n ih =>
      rw [absW, absW, ih]
      exact bigQ_swp (by decide) { absW p 12 S M n with x0 := (absW p 12 S M n).x0 ^^^ ofBe64 (blk 8 M n) }
  have h0 : swp ⟨ofBe64 AsconHash.iv, 0, 0, 0, 0⟩ = ⟨ofBe64 AsconHash.iv, 0, 0, 0, 0⟩ := by simp only [swp, swapBits_zero]
  have hW : hashW (bigQ revP) M = swp (hashW p M) := by
    unfold hashW absorbW
    rw [← h0, bigQ_swp (by decide), ha, h0]
    exact bigQ_swp (by decide) { absW p 12 (p 12 ⟨ofBe64 AsconHash.iv, 0, 0, 0, 0⟩) M (M.length / 8) with
      x0 := (absW p 12 (p 12 ⟨ofBe64 AsconHash.iv, 0, 0, 0, 0⟩) M (M.length / 8)).x0 ^^^
        ofBe64 (M.drop (M.length / 8 * 8) ++ [0x80]) }
  have hr : ∀ i S, Nat.repeat (bigQ revP 12) i (swp S) = swp (Nat.repeat (p 12) i S) := by
    intro i S
    induction i with
    | zero => rfl
    | succ i ih => rw [Nat.repeat, Nat.repeat, ih, bigQ_swp (by decide)]
  rw [hash_words]
  simp only [hashQ, hW, hr]
  rfl

end Model.Opt.Ord.Opt8

/-! ## The API -/

namespace Model.PortableA
open C Spec Model.Opt.Ord
open Model.Opt (PQ isAscon)

theorem q_bijective (v : PortableA) (o : ByteOrder) (n : Nat) : Bijective (v.q o n) := by
  have inv : ∀ {f g k k' : Ascon.State → Ascon.State}, (∀ x, k (k' x) = x) → (∀ x, k' (k x) = x) → Bijective g →
      (∀ x, f x = k (g (k' x))) → Bijective f := by
    intro f g k k' h1 h2 hg hf
    refine ⟨fun x y h => ?_, fun y => ?_⟩
    · rw [hf, hf] at h
      have h := hg.1 _ _ ((h2 _).symm.trans ((congrArg k' h).trans (h2 _)))
      rw [← h1 x, h, h1]
    · obtain ⟨x, hx⟩ := hg.2 (k' y)
      exact ⟨k x, by rw [hf, h2, hx, h1]⟩
  have hb : ∀ {g : Nat → Ascon.State → Ascon.State}, Bijective (g n) → Bijective (bigQ g n) := by
    intro g hg
    by_cases h : n = 6
    · exact inv revS_revS revS_revS hg fun x => by rw [bigQ, if_pos h]
    · exact inv Ψ_Ψ' Ψ'_Ψ hg fun x => by rw [bigQ, if_neg h]
  have hr : Bijective (Opt8.revP n) := inv revS_revS revS_revS (Ascon.p_bijective n) fun _ => rfl
  match o, v with
  | .little, _ => exact Ascon.p_bijective n
  | .big, .opt64 => exact hb (Ascon.p_bijective n)
  | .big, .opt32 => exact hb (Ascon.p_bijective n)
  | .big, .opt32Compact => exact hb (Ascon.p_bijective n)
  | .big, .opt32Tiny => exact hb (Ascon.p_bijective n)
  | .big, .opt8 => exact hb hr
  | .big, .opt8Tiny => exact hb hr

theorem encrypts (v : PortableA) (o : ByteOrder) {e : Env} {s : St} {a : EncArgs} (V : ValidEnc e a)
    (L : Limits.byWords.Enc e a) :
    ∃ s', Runs ((v.aead o).encrypt a) e s 0 s' ∧ (word o (bytesAt s' a.clen 8)).toNat = a.mlen + 16 ∧
      bytesAt s' a.c (a.mlen + 16) = (PQ (v.q o)).encrypt (bytesAt s a.k 16) (bytesAt s a.npub 16)
        (bytesAt s a.ad a.adlen) (bytesAt s a.m a.mlen) ∧
      ∀ (b i : Nat), ¬ InBuf a.clen 8 b i → ¬ InBuf a.c (a.mlen + 16) b i → s'.mem b i = s.mem b i := by
  have W : (PQ (v.q o)).Wf := isAscon.wf
  obtain ⟨s', hr, hm⟩ := encryptInOK o W (Nat.le_add_right · 16) (I := Opt.Ord.impl o (v.prims o)) (v.macEnc o).mac.mem
    (v.macEnc o).enc rfl ⟨16, rfl⟩ e s a V L
  have hl : ((PQ (v.q o)).encrypt (bytesAt s a.k 16) (bytesAt s a.npub 16) (bytesAt s a.ad a.adlen)
      (bytesAt s a.m a.mlen)).length = a.mlen + 16 := by
    rw [Params.encrypt, List.length_append, Params.length_enc, Params.length_mac W _ _ (by simp) (by simp), length_bytesAt]
  refine ⟨s', hr, ?_, ?_, fun b i h1 h2 => ?_⟩
  · rw [bytesAt_mem_congr hm, bytesAt_putBytes_disjoint, bytesAt_putBytes_same' _ _ _ (by simp), word_bytes, BitVec.toNat_ofNat,
      Nat.mod_eq_of_lt V.mlen_lt]
    rw [hl]; exact V.clen_c
  · rw [bytesAt_mem_congr hm, bytesAt_putBytes_same' _ _ _ hl]
  · rw [hm, putBytes_frame hl h2, putBytes_frame (by simp) h1]

theorem decrypts (v : PortableA) (o : ByteOrder) {e : Env} {s : St} {a : DecArgs} (V : ValidDec e a)
    (L : Limits.byWords.Dec e a) :
    ∃ (r : Int) (s' : St), Runs ((v.aead o).decrypt a) e s r s' ∧ (r = 0 ∨ r = -1) ∧
      (word o (bytesAt s' a.mlen 8)).toNat = a.clen - 16 ∧
      (r = 0 ↔ bytesAt s (a.c + (a.clen - 16)) 16 = (PQ (v.q o)).mac (bytesAt s a.k 16) (bytesAt s a.npub 16)
        (bytesAt s a.ad a.adlen) (bytesAt s a.c (a.clen - 16))) ∧
      (r = 0 → bytesAt s' a.m (a.clen - 16) = (PQ (v.q o)).enc (bytesAt s a.k 16) (bytesAt s a.npub 16)
        (bytesAt s a.c (a.clen - 16))) ∧
      (r = -1 → ∀ (b i : Nat), ¬ InBuf a.mlen 8 b i → s'.mem b i = s.mem b i) := by
  have key := decryptInOK o (isAscon (q := v.q o)).wf (Nat.le_add_right · 16) (I := Opt.Ord.impl o (v.prims o)) (v.macEnc o).mac
    (v.macEnc o).enc e s a V.toValidDecIn L
  have hlt : a.clen - 16 < 2 ^ 64 := Nat.lt_of_le_of_lt (Nat.sub_le _ _) V.clen_lt
  by_cases h : tagEq (PQ (v.q o)) (bytesAt s a.k 16) (bytesAt s a.npub 16) (bytesAt s a.ad a.adlen) (bytesAt s a.c (a.clen - 16))
        (bytesAt s (a.c + (a.clen - 16)) 16)
  · obtain ⟨s', hr, hm⟩ := key.1 h V
    refine ⟨0, s', hr, Or.inl rfl, ?_, ⟨fun _ => h, fun _ => rfl⟩, fun _ => ?_, fun h => absurd h (by decide)⟩
    · rw [bytesAt_mem_congr hm, bytesAt_putBytes_disjoint, bytesAt_putBytes_same' _ _ _ (by simp), word_bytes,
        BitVec.toNat_ofNat, Nat.mod_eq_of_lt hlt]
      simpa using V.mlen_m
    · rw [bytesAt_mem_congr hm, bytesAt_putBytes_same' _ _ _ (by simp)]
  · obtain ⟨s', hr, hm⟩ := key.2 h
    refine ⟨-1, s', hr, Or.inr rfl, ?_, ⟨fun h => absurd h (by decide), fun h' => absurd h' h⟩, fun h => absurd h (by decide),
      fun _ b i hb => ?_⟩
    · rw [bytesAt_mem_congr hm, bytesAt_putBytes_same' _ _ _ (by simp), word_bytes, BitVec.toNat_ofNat, Nat.mod_eq_of_lt hlt]
    · rw [hm]
      exact putBytes_frame (by simp) hb

theorem q_bytes {v : PortableA} (hv : v = .opt8 ∨ v = .opt8Tiny) (o : ByteOrder) :
    v.q o = Ascon.p ∨ v.q o = bigQ Opt8.revP := by
  rcases hv with rfl | rfl <;> cases o
  · exact Or.inl rfl
  · exact Or.inr rfl
  · exact Or.inl rfl
  · exact Or.inr rfl

theorem enc_bytes {v : PortableA} (hv : v = .opt8 ∨ v = .opt8Tiny) (o : ByteOrder) {K N : List Byte} (hK : K.length = 16)
    (hN : N.length = 16) (M : List Byte) : (PQ (v.q o)).enc K N M = isapA128a.enc K N M := by
  rcases q_bytes hv o with h | h
  · rw [h, Opt.PQ_p]
  · rw [h]; exact Opt8.enc_eq hK hN M

theorem hash_bytes {v : PortableA} (hv : v = .opt8 ∨ v = .opt8Tiny) (o : ByteOrder) (M : List Byte) :
    hashQ (v.q o) M = AsconHash.hash M := by
  rcases q_bytes hv o with h | h
  · rw [h, hash_words]
  · rw [h]; exact Opt8.hash_eq M

end Model.PortableA
