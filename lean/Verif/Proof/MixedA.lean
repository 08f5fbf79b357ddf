import Verif.Proof.LanesA128
import Verif.Proof.Targets
/-!
# What the implementations of `Model/BigEndian.lean` compute

The functions, with either byte order; and the strings that these functions do not tell apart on big-endian platforms.
-/

namespace Model
open C Spec Spec.Ascon

namespace Opt.Ord

/-- The four permutations with these constants. -/
structure PureRounds {κ : Type} (D : Prims) (round : State → κ → State) (c12 c6 c1 : List κ) : Prop where
  ok : PureOK D (seqRounds round (c12 ++ c6 ++ c1)) (seqRounds round c1) (seqRounds round (c6 ++ c1))
    (seqRounds round (c12 ++ c6 ++ c1))

theorem pureOK_unrolled {κ : Type} (round : State → κ → State) (c12 c6 c1 : List κ) (t f b : BitVec 64 → BitVec 64) :
    PureRounds (unrolled round c12 c6 c1 t f b) round c12 c6 c1 :=
  ⟨⟨fun _ _ _ => runs_pure _ _ _, fun _ _ _ => runs_pure _ _ _, fun _ _ _ => runs_pure _ _ _, fun _ _ _ => runs_pure _ _ _⟩⟩

theorem pureOK_switch {κ : Type} (round : State → κ → State) (c12 c6 c1 : List κ) (t f b : BitVec 64 → BitVec 64) :
    PureRounds (viaProunds (switchRounds round c12 c6 c1) t f b) round c12 c6 c1 := by
  have h12 : ∀ (e : Env) (s : St) S, Runs (switchRounds round c12 c6 c1 12 S) e s (seqRounds round (c12 ++ c6 ++ c1) S) s :=
    fun _ _ _ => runs_if_true rfl (runs_pure _ _ _)
  exact ⟨⟨h12, fun _ _ _ => runs_if_false (by omega) (runs_if_false (by omega) (runs_pure _ _ _)),
    fun _ _ _ => runs_if_false (by omega) (runs_if_true rfl (runs_pure _ _ _)), h12⟩⟩

end Opt.Ord

namespace MixedA

/-- The functions of the implementation. -/
def lanes (o : ByteOrder) : MixedA → Lanes
  | .bi32 => Opt.Ord.lanes o (Opt.Ord.Bi32.prims o) (Opt.seqRounds (Opt.Ord.Bi32.round o) (Opt.Bi32.k12 ++ Opt.Bi32.k6 ++ Opt.Bi32.k1))
      (Opt.seqRounds (Opt.Ord.Bi32.round o) Opt.Bi32.k1) (Opt.seqRounds (Opt.Ord.Bi32.round o) (Opt.Bi32.k6 ++ Opt.Bi32.k1))
      (Opt.seqRounds (Opt.Ord.Bi32.round o) (Opt.Bi32.k12 ++ Opt.Bi32.k6 ++ Opt.Bi32.k1))
  | .bi32Compact => Opt.Ord.lanes o (Opt.Ord.Bi32.primsCompact o)
      (Opt.seqRounds (Opt.Ord.Bi32.round o) (Opt.Bi32.k12 ++ Opt.Bi32.k6 ++ Opt.Bi32.k1))
      (Opt.seqRounds (Opt.Ord.Bi32.round o) Opt.Bi32.k1) (Opt.seqRounds (Opt.Ord.Bi32.round o) (Opt.Bi32.k6 ++ Opt.Bi32.k1))
      (Opt.seqRounds (Opt.Ord.Bi32.round o) (Opt.Bi32.k12 ++ Opt.Bi32.k6 ++ Opt.Bi32.k1))
  | .bi8 => Opt.Ord.lanes o (Opt.Ord.Bi8.prims o) (Opt.seqRounds (Opt.Ord.Bi8.round o) (Opt.Bi8.k12 ++ Opt.Bi8.k6 ++ Opt.Bi8.k1))
      (Opt.seqRounds (Opt.Ord.Bi8.round o) Opt.Bi8.k1) (Opt.seqRounds (Opt.Ord.Bi8.round o) (Opt.Bi8.k6 ++ Opt.Bi8.k1))
      (Opt.seqRounds (Opt.Ord.Bi8.round o) (Opt.Bi8.k12 ++ Opt.Bi8.k6 ++ Opt.Bi8.k1))
  | .a128Opt64 d => A128.Opt64.Ord.lanes o (A128.Opt64.cfg d)
  | .a128Opt32 | .a128Opt32Arm => A128.Opt32.Ord.lanes o A128.Opt32.Ord.q12

theorem isImpl (v : MixedA) (o : ByteOrder) : (v.lanes o).cipher.Impl v.target.limits (v.impl o) :=
  match v with
  | .bi32 => Opt.Ord.lanesImpl (Opt.Ord.pureOK_unrolled ..).ok
  | .bi32Compact => Opt.Ord.lanesImpl (Opt.Ord.pureOK_switch ..).ok
  | .bi8 => Opt.Ord.lanesImpl (Opt.Ord.pureOK_switch ..).ok
  | .a128Opt64 _ => A128.Opt64.Ord.lanesImpl _
  | .a128Opt32 => A128.Opt32.Ord.lanesImpl A128.Opt32.Ord.pureOK
  | .a128Opt32Arm => A128.Opt32.Ord.lanesImpl A128.Opt32.Ord.pureOKArm

theorem runs_hash (v : MixedA) (o : ByteOrder) {h : Ptr → Ptr → Nat → CM Int} (hh : v.hash o = some h) {e : Env} {s : St}
    {a : HashArgs} (hal : AlignedHash e a) (V : ValidHash e a) :
    Runs (h a.out a.inp a.inlen) e s 0 (putBytes s a.out ((v.lanes o).hash (bytesAt s a.inp a.inlen))) :=
  match v, hh with
  | .bi32, rfl => Opt.Ord.lanesHash (Opt.Ord.pureOK_unrolled ..).ok hal V
  | .bi32Compact, rfl => Opt.Ord.lanesHash (Opt.Ord.pureOK_switch ..).ok hal V
  | .bi8, rfl => Opt.Ord.lanesHash (Opt.Ord.pureOK_switch ..).ok hal V

theorem length_st (v : MixedA) (o : ByteOrder) (w : BitVec 64) : ((v.lanes o).st w).length = 8 := by
  cases v <;> simp only [lanes, Opt.Ord.lanes, A128.Opt64.Ord.lanes, A128.Opt32.Ord.lanes, length_bytes]

theorem length_hash (v : MixedA) (o : ByteOrder) (X : List Byte) : ((v.lanes o).hash X).length = 32 := by
  simp [Lanes.hash, v.length_st]
  rfl

/-- How many zero bytes can be appended unnoticed on a big-endian platform. -/
def slack : MixedA → Nat
  | .bi32 | .bi32Compact => 5
  | .bi8 => 0
  | .a128Opt64 _ | .a128Opt32 | .a128Opt32Arm => 7

/-- The strings to which they can be appended. -/
def Slack (v : MixedA) (X : List Byte) : Prop :=
  X.length % 8 = 0 ∧ match v with
    | .bi8 => False
    | .a128Opt64 _ => X ≠ []
    | _ => True

theorem full_eq (v : MixedA) (hv : v ≠ .bi8) : (v.lanes .big).full = (v.lanes .big).part (zeros v.slack) :=
  match v with
  | .bi32 => by decide +kernel
  | .bi32Compact => by decide +kernel
  | .bi8 => absurd rfl hv
  | .a128Opt64 _ => (by decide +kernel : (0x8000000000000000 : BitVec 64) = A128.Opt64.u64big (word .big (zeros 7 ++ [0x80] ++ zeros (7 - (zeros 7).length))))
  | .a128Opt32 => by decide +kernel
  | .a128Opt32Arm => by decide +kernel

theorem absorb_slack (v : MixedA) (S : State) {X : List Byte} (h : v.Slack X) :
    (v.lanes .big).absorb S (X ++ zeros v.slack) = (v.lanes .big).absorb S X :=
  match v with
  | .bi32 => Lanes.absorb_zeros _ (by decide) (by decide) (full_eq .bi32 nofun) S h.1 (Or.inl rfl)
  | .bi32Compact => Lanes.absorb_zeros _ (by decide) (by decide) (full_eq .bi32Compact nofun) S h.1 (Or.inl rfl)
  | .bi8 => h.2.elim
  | .a128Opt64 d => Lanes.absorb_zeros _ (j := 7) (by decide) (by decide) (full_eq (.a128Opt64 d) nofun) S h.1 (Or.inr h.2)
  | .a128Opt32 => Lanes.absorb_zeros _ (by decide) (by decide) (full_eq .a128Opt32 nofun) S h.1 (Or.inl rfl)
  | .a128Opt32Arm => Lanes.absorb_zeros _ (by decide) (by decide) (full_eq .a128Opt32Arm nofun) S h.1 (Or.inl rfl)

/-- Tags do not depend on such zero bytes after the associated data. -/
theorem mac_ad (v : MixedA) {A : List Byte} (h : v.Slack A) (K N C : List Byte) :
    (v.lanes .big).cipher.mac K N (A ++ zeros v.slack) C = (v.lanes .big).cipher.mac K N A C := by
  show (v.lanes .big).mac .. = (v.lanes .big).mac ..
  simp only [Lanes.mac, Lanes.macSt, v.absorb_slack _ h]

/-- Tags do not depend on such zero bytes after the ciphertext. -/
theorem mac_c (v : MixedA) {C : List Byte} (h : v.Slack C) (K N A : List Byte) :
    (v.lanes .big).cipher.mac K N A (C ++ zeros v.slack) = (v.lanes .big).cipher.mac K N A C := by
  show (v.lanes .big).mac .. = (v.lanes .big).mac ..
  simp only [Lanes.mac, Lanes.macSt, v.absorb_slack _ h]

theorem hash_slack (v : MixedA) {X : List Byte} (h : v.Slack X) :
    (v.lanes .big).hash (X ++ zeros v.slack) = (v.lanes .big).hash X := by
  simp only [Lanes.hash, v.absorb_slack _ h]

end MixedA
end Model
