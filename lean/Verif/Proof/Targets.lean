import Verif.Model.Targets
import Verif.Proof.AsconRef
import Verif.Proof.KeccakRef
import Verif.Proof.Stp
import Verif.Proof.A128
import Verif.Proof.A128aAvx
import Verif.Proof.K128
import Verif.Proof.K128Arm
/-!
# Every implementation satisfies its contract
-/

namespace Model
open C Spec

theorem ParamSet.cfgOK (p : ParamSet) : Ref.CfgOK p.cfg p.spec := by
  cases p
  · exact AsconRef.cfgA128a_ok
  · exact AsconRef.cfgA128_ok
  · exact KeccakRef.cfgK128a_ok
  · exact KeccakRef.cfgK128_ok

namespace Target

/-- What an implementation computes: its parameter set, except for bi_32_armv7m. -/
def spec : Target → Params
  | a128aBi32Armv7m => Opt.PQ Opt.Armv7m.q
  | t => t.set.spec

theorem spec_eq {t : Target} (h : t.conforming = true) : t.spec = t.set.spec := by
  cases t <;> first | rfl | exact absurd h (by decide)

theorem wf (t : Target) : t.spec.Wf := by
  cases t with
  | ref p => exact p.cfgOK.wf
  | x p => exact p.cfgOK.wf
  | a128Opt64 _ | a128Opt32 | a128Opt32Armv67m => exact A128.isAscon.wf
  | k128aOpt64 | k128aAvx512 j | k128aOpt32Armv6m | k128aOpt32Armv7m => exact KeccakRef.wfK128a
  | k128Opt64 | k128Opt32Armv6m | k128Opt32Armv7m => exact KeccakRef.wfK128
  | _ => exact Opt.isAscon.wf

/-- Nothing is read of an empty buffer. -/
theorem ext_zero (t : Target) : t.limits.ext 0 = 0 := by cases t <;> rfl

/-- The test for acceptance of a tag. -/
def acc (t : Target) (K N A C T : List Byte) : Prop :=
  if t.stp = true then Stp.Accepts t.spec K N A C T else T = t.spec.mac K N A C

theorem encryptOK_ref (p : ParamSet) : EncryptOK p.spec .byBytes (Ref.impl p.cfg).aead.encrypt :=
  encryptOK p.cfgOK.wf (Nat.le_add_right · 16) (Ref.macOK p.cfgOK).mem (Ref.encOK p.cfgOK) rfl ⟨16, rfl⟩

theorem decryptOK_ref (p : ParamSet) : DecryptOK p.spec .byBytes (tagEq p.spec) (Ref.impl p.cfg).aead.decrypt :=
  decryptOK p.cfgOK.wf (Nat.le_add_right · 16) (Ref.macOK p.cfgOK) (Ref.encOK p.cfgOK)

theorem encryptOK_opt {D : Opt.Prims} {φ : BitVec 64 → BitVec 64} {q : Nat → Opt.State → Opt.State} (O : Opt.RepOK D φ q) :
    EncryptOK (Opt.PQ q) .byWords (Opt.impl D).aead.encrypt :=
  encryptOK Opt.isAscon.wf (Nat.le_add_right · 16) (Opt.macOK O).mem (Opt.encOK O) rfl ⟨16, rfl⟩

theorem decryptOK_opt {D : Opt.Prims} {φ : BitVec 64 → BitVec 64} {q : Nat → Opt.State → Opt.State} (O : Opt.RepOK D φ q) :
    DecryptOK (Opt.PQ q) .byWords (tagEq (Opt.PQ q)) (Opt.impl D).aead.decrypt :=
  decryptOK Opt.isAscon.wf (Nat.le_add_right · 16) (Opt.macOK O) (Opt.encOK O)

theorem encryptOK_a128 {I : Impl} {n : Nat} (hm : MacOK isapA128 ⟨8, 8, n, id⟩ I.mac) (he : EncOK isapA128 ⟨8, 8, n, id⟩ I.enc)
    (ht : I.tagAlign = 8) : EncryptOK isapA128 ⟨8, 8, n, id⟩ I.aead.encrypt :=
  Model.encryptOK A128.isAscon.wf (Nat.le_add_right · 16) hm.mem he ht.symm ⟨2, by rw [ht]⟩

theorem decryptOK_a128 {I : Impl} {n : Nat} (hm : MacOK isapA128 ⟨8, 8, n, id⟩ I.mac) (he : EncOK isapA128 ⟨8, 8, n, id⟩ I.enc) :
    DecryptOK isapA128 ⟨8, 8, n, id⟩ (tagEq isapA128) I.aead.decrypt :=
  Model.decryptOK A128.isAscon.wf (Nat.le_add_right · 16) hm he

theorem encryptOK_k128 {D : K128.Prims} {P : Params} {L : Limits} (O : K128.PrimsOK D P L) (hx : ∀ n, L.ext n ≤ n + 16)
    (ht : L.tal = D.tagAlign) (hd : D.tagAlign ∣ 16) : EncryptOK P L (K128.impl D).aead.encrypt :=
  Model.encryptOK O.wf hx (K128.macOK O).mem (K128.encOK O) ht hd

theorem decryptOK_k128 {D : K128.Prims} {P : Params} {L : Limits} (O : K128.PrimsOK D P L) (hx : ∀ n, L.ext n ≤ n + 16) :
    DecryptOK P L (tagEq P) (K128.impl D).aead.decrypt :=
  Model.decryptOK O.wf hx (K128.macOK O) (K128.encOK O)

theorem encryptOK_k128arm {D : K128.Arm.Prims} {P : Params} (O : K128.Arm.PrimsOK D P) :
    EncryptOK P K128.Arm.limits (K128.Arm.impl D).aead.encrypt :=
  Model.encryptOK O.wf (Nat.le_add_right · 16) (K128.Arm.macOK O).mem (K128.Arm.encOK O) rfl ⟨16, rfl⟩

theorem decryptOK_k128arm {D : K128.Arm.Prims} {P : Params} (O : K128.Arm.PrimsOK D P) :
    DecryptOK P K128.Arm.limits (tagEq P) (K128.Arm.impl D).aead.decrypt :=
  Model.decryptOK O.wf (Nat.le_add_right · 16) (K128.Arm.macOK O) (K128.Arm.encOK O)

/-- Encryption, for every implementation. -/
theorem encryptOK (t : Target) : EncryptOK t.spec t.limits t.aead.encrypt := by
  cases t with
  | ref p => exact encryptOK_ref p
  | x p => exact encryptOK_ref p
  | a128aOpt64 => exact encryptOK_opt Opt.Opt64.repOK
  | a128aOpt32 => exact encryptOK_opt Opt.Opt32.repOK
  | a128aOpt32Compact => exact encryptOK_opt Opt.Opt32.repOKCompact
  | a128aOpt32Tiny => exact encryptOK_opt Opt.Opt32.repOKTiny
  | a128aOpt32Stp => exact Opt.Stp.encryptOK Opt.Opt32.stpOK
  | a128aOpt8 => exact encryptOK_opt Opt.Opt8.repOK
  | a128aOpt8Tiny => exact encryptOK_opt Opt.Opt8.repOKTiny
  | a128aBi8 => exact encryptOK_opt Opt.Bi8.repOK
  | a128aBi32 => exact encryptOK_opt Opt.Bi32.repOK
  | a128aBi32Compact => exact encryptOK_opt Opt.Bi32.repOKCompact
  | a128aBi32Stp => exact Opt.Stp.encryptOK Opt.Bi32.stpOK
  | a128aBi32Armv6 => exact encryptOK_opt Opt.Armv6.repOK
  | a128aBi32Armv6m => exact encryptOK_opt Opt.Armv6m.repOK
  | a128aBi32Armv6mCompact => exact encryptOK_opt Opt.Armv6m.repOKCompact
  | a128aBi32Armv6mStp => exact Opt.Stp.encryptOK Opt.Armv6m.stpOK
  | a128aBi32Armv7m => exact encryptOK_opt Opt.Armv7m.repOK
  | a128aAvx512 d => exact A128.Avx.encryptOK d
  | a128Opt64 d => exact encryptOK_a128 (I := A128.Opt64.impl _) (A128.Opt64.macOK (A128.Opt64.cfgOK d)) (A128.Opt64.encOK (A128.Opt64.cfgOK d)) rfl
  | a128Opt32 => exact encryptOK_a128 (I := A128.Opt32.impl _) (A128.Opt32.macOK A128.Opt32.permOK) (A128.Opt32.encOK A128.Opt32.permOK) rfl
  | a128Opt32Armv67m =>
    exact encryptOK_a128 (I := A128.Opt32.impl _) (A128.Opt32.macOK A128.Opt32.permOKArm) (A128.Opt32.encOK A128.Opt32.permOKArm) rfl
  | k128aOpt64 => exact encryptOK_k128 K128.Opt64.primsK128a_ok K128.Opt64.ext_le rfl ⟨8, rfl⟩
  | k128Opt64 => exact encryptOK_k128 K128.Opt64.primsK128_ok K128.Opt64.ext_le rfl ⟨8, rfl⟩
  | k128aAvx512 j => exact encryptOK_k128 (K128.Avx.prims_ok j) (Nat.le_add_right · 16) rfl ⟨16, rfl⟩
  | k128aOpt32Armv6m => exact encryptOK_k128arm K128.Arm.primsK128aV6_ok
  | k128aOpt32Armv7m => exact encryptOK_k128arm K128.Arm.primsK128aV7_ok
  | k128Opt32Armv6m => exact encryptOK_k128arm K128.Arm.primsK128V6_ok
  | k128Opt32Armv7m => exact encryptOK_k128arm K128.Arm.primsK128V7_ok

/-- Decryption, for every implementation. -/
theorem decryptOK (t : Target) : DecryptOK t.spec t.limits t.acc t.aead.decrypt := by
  cases t with
  | ref p => exact decryptOK_ref p
  | x p => exact decryptOK_ref p
  | a128aOpt64 => exact decryptOK_opt Opt.Opt64.repOK
  | a128aOpt32 => exact decryptOK_opt Opt.Opt32.repOK
  | a128aOpt32Compact => exact decryptOK_opt Opt.Opt32.repOKCompact
  | a128aOpt32Tiny => exact decryptOK_opt Opt.Opt32.repOKTiny
  | a128aOpt32Stp => exact Opt.Stp.decryptOK Opt.Opt32.stpOK
  | a128aOpt8 => exact decryptOK_opt Opt.Opt8.repOK
  | a128aOpt8Tiny => exact decryptOK_opt Opt.Opt8.repOKTiny
  | a128aBi8 => exact decryptOK_opt Opt.Bi8.repOK
  | a128aBi32 => exact decryptOK_opt Opt.Bi32.repOK
  | a128aBi32Compact => exact decryptOK_opt Opt.Bi32.repOKCompact
  | a128aBi32Stp => exact Opt.Stp.decryptOK Opt.Bi32.stpOK
  | a128aBi32Armv6 => exact decryptOK_opt Opt.Armv6.repOK
  | a128aBi32Armv6m => exact decryptOK_opt Opt.Armv6m.repOK
  | a128aBi32Armv6mCompact => exact decryptOK_opt Opt.Armv6m.repOKCompact
  | a128aBi32Armv6mStp => exact Opt.Stp.decryptOK Opt.Armv6m.stpOK
  | a128aBi32Armv7m => exact decryptOK_opt Opt.Armv7m.repOK
  | a128aAvx512 d => exact A128.Avx.decryptOK d
  | a128Opt64 d => exact decryptOK_a128 (I := A128.Opt64.impl _) (A128.Opt64.macOK (A128.Opt64.cfgOK d)) (A128.Opt64.encOK (A128.Opt64.cfgOK d))
  | a128Opt32 => exact decryptOK_a128 (I := A128.Opt32.impl _) (A128.Opt32.macOK A128.Opt32.permOK) (A128.Opt32.encOK A128.Opt32.permOK)
  | a128Opt32Armv67m =>
    exact decryptOK_a128 (I := A128.Opt32.impl _) (A128.Opt32.macOK A128.Opt32.permOKArm) (A128.Opt32.encOK A128.Opt32.permOKArm)
  | k128aOpt64 => exact decryptOK_k128 K128.Opt64.primsK128a_ok K128.Opt64.ext_le
  | k128Opt64 => exact decryptOK_k128 K128.Opt64.primsK128_ok K128.Opt64.ext_le
  | k128aAvx512 j => exact decryptOK_k128 (K128.Avx.prims_ok j) (Nat.le_add_right · 16)
  | k128aOpt32Armv6m => exact decryptOK_k128arm K128.Arm.primsK128aV6_ok
  | k128aOpt32Armv7m => exact decryptOK_k128arm K128.Arm.primsK128aV7_ok
  | k128Opt32Armv6m => exact decryptOK_k128arm K128.Arm.primsK128V6_ok
  | k128Opt32Armv7m => exact decryptOK_k128arm K128.Arm.primsK128V7_ok

end Target
end Model
