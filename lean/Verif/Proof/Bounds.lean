import Verif.Model.Bounds
import Verif.Proof.BoundsRef
import Verif.Proof.BoundsPerm
import Verif.Proof.BoundsOpt
import Verif.Proof.BoundsA128
import Verif.Proof.BoundsK128
/-!
# No implementation leaves its arrays
-/

namespace Model
open C

namespace Ref.Chk

theorem implChk {G : Cfg} (H : Ok G) : ImplChk (impl G) (Ref.impl G.toCfg) :=
  ⟨fun _ _ _ _ _ => isapEnc_chk H _ _ _ _ _, fun _ _ _ _ _ _ => isapMac_chk H _ _ _ _ _ _, rfl⟩

end Ref.Chk

theorem ParamSet.implChk (p : ParamSet) : ImplChk (Ref.Chk.impl p.cfgChk) (Ref.impl p.cfg) :=
  match p with
  | .a128a => Ref.Chk.implChk AsconRef.Chk.okA128a
  | .a128 => Ref.Chk.implChk AsconRef.Chk.okA128
  | .k128a => Ref.Chk.implChk KeccakRef.Chk.okK128a
  | .k128 => Ref.Chk.implChk KeccakRef.Chk.okK128

namespace Opt.Chk

theorem quiet_switch {κ : Type} {round : State → κ → State} {c12 c6 c1 : List κ} {f g h : BitVec 64 → BitVec 64} :
    Quiet (viaProunds (switchRounds round c12 c6 c1) f g h) := viaProunds_quiet (switch_quiet round c12 c6 c1) f g h

theorem quiet_tiny {round : State → Byte → State} {f g h : BitVec 64 → BitVec 64} :
    Quiet (viaProunds (tinyRounds round) f g h) := viaProunds_quiet (fun _ _ => tiny_quiet _ _ _ _) f g h

theorem quiet_switch7 {κ : Type} {round : State → κ → State} {c12 c6 c1 : List κ} {f g h : BitVec 64 → BitVec 64} :
    Quiet (viaProunds7 (switchRounds7 round c12 c6 c1) f g h).toPrims := viaProunds_quiet (switch7_quiet round c12 c6 c1) f g h

theorem pvp_switch7 {κ : Type} {round : State → κ → State} {c12 c6 c1 : List κ} {f g h : BitVec 64 → BitVec 64} (s : State) :
    Chk Eq ((viaProunds7 (switchRounds7 round c12 c6 c1) f g h).pPVP s) ((viaProunds7 (switchRounds7 round c12 c6 c1) f g h).pPVP s) :=
  switch7_quiet _ _ _ _ _ _

end Opt.Chk

open Opt.Chk

theorem Target.hash_quiet {t : Target} {D : Opt.Prims} (h : t.hashPrims = some D) : Quiet D := by
  cases t with
  | a128aOpt64 => exact Option.some.inj h ▸ (show Quiet Opt.Opt64.prims from unrolled_quiet _ _ _ _ _ _ _)
  | a128aOpt32 => exact Option.some.inj h ▸ (show Quiet Opt.Opt32.prims from unrolled_quiet _ _ _ _ _ _ _)
  | a128aOpt32Compact => exact Option.some.inj h ▸ (show Quiet Opt.Opt32.primsCompact from quiet_switch)
  | a128aOpt32Tiny => exact Option.some.inj h ▸ (show Quiet Opt.Opt32.primsTiny from quiet_tiny)
  | a128aOpt32Stp => exact Option.some.inj h ▸ (show Quiet Opt.Opt32.primsStp.toPrims from quiet_switch7)
  | a128aOpt8 => exact Option.some.inj h ▸ (show Quiet Opt.Opt8.prims from quiet_switch)
  | a128aOpt8Tiny => exact Option.some.inj h ▸ (show Quiet Opt.Opt8.primsTiny from quiet_tiny)
  | a128aBi8 => exact Option.some.inj h ▸ (show Quiet Opt.Bi8.prims from quiet_switch)
  | a128aBi32 => exact Option.some.inj h ▸ (show Quiet Opt.Bi32.prims from unrolled_quiet _ _ _ _ _ _ _)
  | a128aBi32Compact => exact Option.some.inj h ▸ (show Quiet Opt.Bi32.primsCompact from quiet_switch)
  | a128aBi32Stp => exact Option.some.inj h ▸ (show Quiet Opt.Bi32.primsStp.toPrims from quiet_switch7)
  | a128aBi32Armv6 => exact Option.some.inj h ▸ (show Quiet Opt.Armv6.prims from unrolled_quiet _ _ _ _ _ _ _)
  | a128aBi32Armv6m => exact Option.some.inj h ▸ (show Quiet Opt.Armv6m.prims from unrolled_quiet _ _ _ _ _ _ _)
  | a128aBi32Armv6mCompact => exact Option.some.inj h ▸ (show Quiet Opt.Armv6m.primsCompact from quiet_switch)
  | a128aBi32Armv6mStp => exact Option.some.inj h ▸ (show Quiet Opt.Armv6m.primsStp.toPrims from quiet_switch7)
  | a128aBi32Armv7m => exact Option.some.inj h ▸ (show Quiet Opt.Armv7m.prims from unrolled_quiet _ _ _ _ _ _ _)
  | _ => exact nomatch h

theorem Target.aead_dec (t : Target) (a : DecArgs) : Chk Eq (t.aeadChk.decrypt a) (t.aead.decrypt a) := by
  cases t with
  | ref p => exact (p.implChk.aead).dec a
  | x p => exact (p.implChk.aead).dec a
  | a128aOpt64 => exact (Opt.Chk.implChk (Target.hash_quiet (t := .a128aOpt64) rfl)).aead.dec a
  | a128aOpt32 => exact (Opt.Chk.implChk (Target.hash_quiet (t := .a128aOpt32) rfl)).aead.dec a
  | a128aOpt32Compact => exact (Opt.Chk.implChk (Target.hash_quiet (t := .a128aOpt32Compact) rfl)).aead.dec a
  | a128aOpt32Tiny => exact (Opt.Chk.implChk (Target.hash_quiet (t := .a128aOpt32Tiny) rfl)).aead.dec a
  | a128aOpt32Stp => exact (Opt.Stp.Chk.aeadChk quiet_switch7 pvp_switch7).dec a
  | a128aOpt8 => exact (Opt.Chk.implChk (Target.hash_quiet (t := .a128aOpt8) rfl)).aead.dec a
  | a128aOpt8Tiny => exact (Opt.Chk.implChk (Target.hash_quiet (t := .a128aOpt8Tiny) rfl)).aead.dec a
  | a128aBi8 => exact (Opt.Chk.implChk (Target.hash_quiet (t := .a128aBi8) rfl)).aead.dec a
  | a128aBi32 => exact (Opt.Chk.implChk (Target.hash_quiet (t := .a128aBi32) rfl)).aead.dec a
  | a128aBi32Compact => exact (Opt.Chk.implChk (Target.hash_quiet (t := .a128aBi32Compact) rfl)).aead.dec a
  | a128aBi32Stp => exact (Opt.Stp.Chk.aeadChk quiet_switch7 pvp_switch7).dec a
  | a128aBi32Armv6 => exact (Opt.Chk.implChk (Target.hash_quiet (t := .a128aBi32Armv6) rfl)).aead.dec a
  | a128aBi32Armv6m => exact (Opt.Chk.implChk (Target.hash_quiet (t := .a128aBi32Armv6m) rfl)).aead.dec a
  | a128aBi32Armv6mCompact => exact (Opt.Chk.implChk (Target.hash_quiet (t := .a128aBi32Armv6mCompact) rfl)).aead.dec a
  | a128aBi32Armv6mStp => exact (Opt.Stp.Chk.aeadChk quiet_switch7 pvp_switch7).dec a
  | a128aBi32Armv7m => exact (Opt.Chk.implChk (Target.hash_quiet (t := .a128aBi32Armv7m) rfl)).aead.dec a
  | a128aAvx512 d => exact decrypt_chk (A128.Avx.Chk.implChk d) _ _ a.nsec _ _ _ _ _ _
  | a128Opt64 d => exact (A128.Opt64.Chk.implChk (D := A128.Opt64.cfg d) fun _ => rfl).aead.dec a
  | a128Opt32 => exact (A128.Opt32.Chk.implChk A128.Opt32.Chk.primsChk).aead.dec a
  | a128Opt32Armv67m => exact (A128.Opt32.Chk.implChk A128.Opt32.Chk.primsArmChk).aead.dec a
  | k128aOpt64 => exact (K128.Chk.implChk K128.Chk.primsChkK128a).aead.dec a
  | k128Opt64 => exact (K128.Chk.implChk K128.Chk.primsChkK128).aead.dec a
  | k128aAvx512 j =>
    have h := (K128.Chk.implChk (K128.Chk.primsChkAvx j)).aead.dec a
    rw [K128.Chk.primsAvx_toPrims] at h
    exact h
  | k128aOpt32Armv6m => exact (K128.Arm.Chk.implChk K128.Arm.Chk.primsChkK128aV6).aead.dec a
  | k128aOpt32Armv7m => exact (K128.Arm.Chk.implChk K128.Arm.Chk.primsChkK128aV7).aead.dec a
  | k128Opt32Armv6m => exact (K128.Arm.Chk.implChk K128.Arm.Chk.primsChkK128V6).aead.dec a
  | k128Opt32Armv7m => exact (K128.Arm.Chk.implChk K128.Arm.Chk.primsChkK128V7).aead.dec a

/-- The AVX-512 version of ISAP-A-128a keeps the length of the message in a signed variable. -/
theorem Target.aead_enc (t : Target) (a : EncArgs) (hm : (∃ d, t = .a128aAvx512 d) → a.mlen < 2 ^ 63) :
    Chk Eq (t.aeadChk.encrypt a) (t.aead.encrypt a) := by
  cases t with
  | ref p => exact (p.implChk.aead).enc a
  | x p => exact (p.implChk.aead).enc a
  | a128aOpt64 => exact (Opt.Chk.implChk (Target.hash_quiet (t := .a128aOpt64) rfl)).aead.enc a
  | a128aOpt32 => exact (Opt.Chk.implChk (Target.hash_quiet (t := .a128aOpt32) rfl)).aead.enc a
  | a128aOpt32Compact => exact (Opt.Chk.implChk (Target.hash_quiet (t := .a128aOpt32Compact) rfl)).aead.enc a
  | a128aOpt32Tiny => exact (Opt.Chk.implChk (Target.hash_quiet (t := .a128aOpt32Tiny) rfl)).aead.enc a
  | a128aOpt32Stp => exact (Opt.Stp.Chk.aeadChk quiet_switch7 pvp_switch7).enc a
  | a128aOpt8 => exact (Opt.Chk.implChk (Target.hash_quiet (t := .a128aOpt8) rfl)).aead.enc a
  | a128aOpt8Tiny => exact (Opt.Chk.implChk (Target.hash_quiet (t := .a128aOpt8Tiny) rfl)).aead.enc a
  | a128aBi8 => exact (Opt.Chk.implChk (Target.hash_quiet (t := .a128aBi8) rfl)).aead.enc a
  | a128aBi32 => exact (Opt.Chk.implChk (Target.hash_quiet (t := .a128aBi32) rfl)).aead.enc a
  | a128aBi32Compact => exact (Opt.Chk.implChk (Target.hash_quiet (t := .a128aBi32Compact) rfl)).aead.enc a
  | a128aBi32Stp => exact (Opt.Stp.Chk.aeadChk quiet_switch7 pvp_switch7).enc a
  | a128aBi32Armv6 => exact (Opt.Chk.implChk (Target.hash_quiet (t := .a128aBi32Armv6) rfl)).aead.enc a
  | a128aBi32Armv6m => exact (Opt.Chk.implChk (Target.hash_quiet (t := .a128aBi32Armv6m) rfl)).aead.enc a
  | a128aBi32Armv6mCompact => exact (Opt.Chk.implChk (Target.hash_quiet (t := .a128aBi32Armv6mCompact) rfl)).aead.enc a
  | a128aBi32Armv6mStp => exact (Opt.Stp.Chk.aeadChk quiet_switch7 pvp_switch7).enc a
  | a128aBi32Armv7m => exact (Opt.Chk.implChk (Target.hash_quiet (t := .a128aBi32Armv7m) rfl)).aead.enc a
  | a128aAvx512 d => exact A128.Avx.Chk.encrypt_chk d _ _ _ _ _ _ a.nsec _ _ (hm ⟨d, rfl⟩)
  | a128Opt64 d => exact (A128.Opt64.Chk.implChk (D := A128.Opt64.cfg d) fun _ => rfl).aead.enc a
  | a128Opt32 => exact (A128.Opt32.Chk.implChk A128.Opt32.Chk.primsChk).aead.enc a
  | a128Opt32Armv67m => exact (A128.Opt32.Chk.implChk A128.Opt32.Chk.primsArmChk).aead.enc a
  | k128aOpt64 => exact (K128.Chk.implChk K128.Chk.primsChkK128a).aead.enc a
  | k128Opt64 => exact (K128.Chk.implChk K128.Chk.primsChkK128).aead.enc a
  | k128aAvx512 j =>
    have h := (K128.Chk.implChk (K128.Chk.primsChkAvx j)).aead.enc a
    rw [K128.Chk.primsAvx_toPrims] at h
    exact h
  | k128aOpt32Armv6m => exact (K128.Arm.Chk.implChk K128.Arm.Chk.primsChkK128aV6).aead.enc a
  | k128aOpt32Armv7m => exact (K128.Arm.Chk.implChk K128.Arm.Chk.primsChkK128aV7).aead.enc a
  | k128Opt32Armv6m => exact (K128.Arm.Chk.implChk K128.Arm.Chk.primsChkK128V6).aead.enc a
  | k128Opt32Armv7m => exact (K128.Arm.Chk.implChk K128.Arm.Chk.primsChkK128V7).aead.enc a

end Model
