import Verif.Proof.Armv7mWitness
import Verif.Proof.Calls
import Verif.Props.Sample
/-!
# isapa128av20/bi_32_armv7m is not ISAP-A-128a

The assembly of `ROUND` leaves the new lanes two places further on (`Model.Opt.Armv7m.round_eq`).  So C03, C07, C08 fail for
this implementation.  The properties that do not mention other implementations (C01, C02, C04, ...) hold for it.
-/

namespace Props
open C Model Spec

/-- Encrypt the empty message without associated data. -/
def emptyEnc : EncArgs := { Sample.enc with mlen := 0, adlen := 0 }
/-- Decrypt the result. -/
def emptyDec : DecArgs := { Sample.dec with clen := 16, adlen := 0 }
/-- All memory is zero. -/
def zeroSt : St := ⟨fun _ _ => 0, 0, 0⟩

theorem emptyEnc_valid : ValidEnc Sample.env emptyEnc := by
  have V := Sample.validEnc
  exact {
      k := V.k, npub := V.npub, ad := fun i hi => absurd hi (Nat.not_lt_zero i), m := fun i hi => absurd hi (Nat.not_lt_zero i)
      c := V.c.mono (by decide), clen := V.clen, adlen_lt := by decide, mlen_lt := by decide, c_m := by decide,
      c_ad := by decide, c_npub := by decide, c_k := by decide, clen_c := by decide, clen_m := by decide, clen_ad := by decide,
      clen_npub := by decide, clen_k := by decide }

theorem emptyDec_valid : ValidDec Sample.env emptyDec := by
  have V' := Sample.validDec
  exact {
      k := V'.k, npub := V'.npub, ad := fun i hi => absurd hi (Nat.not_lt_zero i)
      c := V'.c.mono (by decide), mlen := V'.mlen, adlen_lt := by decide, clen_lt := by decide, clen_ge := by decide
      mlen_c := by decide, mlen_ad := by decide, mlen_npub := by decide, mlen_k := by decide
      m := fun i hi => absurd hi (Nat.not_lt_zero i), m_c := by decide, mlen_m := by decide }

theorem zero_bytes (b n : Nat) : bytesAt zeroSt ⟨b, 0⟩ n = zeros n := by
  apply List.ext_getElem
  · simp [zeros]
  · intro i h1 h2
    simp [bytesAt, zeroSt, zeros]

/-- **C08** (and C07) fails for bi_32_armv7m: on an all-zero key and nonce it produces a tag different from that of the
reference implementation. -/
theorem C08_not_armv7m : ∃ (e : Env) (s s1 s2 : St) (a : EncArgs), ValidEnc e a ∧
    Runs (Target.a128aBi32Armv7m.aead.encrypt a) e s 0 s1 ∧ Runs ((Target.ref .a128a).aead.encrypt a) e s 0 s2 ∧
    bytesAt s1 a.c (a.mlen + 16) ≠ bytesAt s2 a.c (a.mlen + 16) := by
  have L1 : Target.a128aBi32Armv7m.limits.Enc Sample.env emptyEnc :=
    Limits.enc_tolerant rfl (by decide) (by decide) fun i hi => absurd hi (Nat.not_lt_zero i)
  have L2 : (Target.ref .a128a).limits.Enc Sample.env emptyEnc :=
    Limits.enc_tolerant rfl (by decide) (by decide) fun i hi => absurd hi (Nat.not_lt_zero i)
  obtain ⟨s1, h1, _⟩ := Target.a128aBi32Armv7m.encryptOK _ zeroSt _ emptyEnc_valid L1
  obtain ⟨s2, h2, _⟩ := (Target.ref .a128a).encryptOK _ zeroSt _ emptyEnc_valid L2
  refine ⟨Sample.env, zeroSt, s1, s2, emptyEnc, emptyEnc_valid, h1, h2, ?_⟩
  rw [enc_c emptyEnc_valid L1 h1, enc_c emptyEnc_valid L2 h2, Target.out, Target.out]
  have hk : bytesAt zeroSt emptyEnc.k 16 = zeros 16 := zero_bytes _ _
  have hn : bytesAt zeroSt emptyEnc.npub 16 = zeros 16 := zero_bytes _ _
  rw [hk, hn]
  exact fun h => Opt.Armv7m.mac_ne h.symm

/-- **C03** fails for bi_32_armv7m: it rejects a ciphertext with the correct ISAP tag, produced by the reference
implementation. -/
theorem C03_not_armv7m : ∃ (e : Env) (s s1 s2 : St) (a : EncArgs) (d : DecArgs), ValidEnc e a ∧ ValidDec e d ∧
    Runs ((Target.ref .a128a).aead.encrypt a) e s 0 s1 ∧
    d.k = a.k ∧ d.npub = a.npub ∧ d.ad = a.ad ∧ d.adlen = a.adlen ∧ d.c = a.c ∧ d.clen = a.mlen + 16 ∧
    Runs (Target.a128aBi32Armv7m.aead.decrypt d) e s1 (-1) s2 := by
  have L1 : Target.a128aBi32Armv7m.limits.Dec Sample.env emptyDec :=
    Limits.dec_tolerant rfl (by decide) (by decide) fun i hi => absurd hi (Nat.not_lt_zero i)
  have L2 : (Target.ref .a128a).limits.Enc Sample.env emptyEnc :=
    Limits.enc_tolerant rfl (by decide) (by decide) fun i hi => absurd hi (Nat.not_lt_zero i)
  obtain ⟨s1, h1, _⟩ := (Target.ref .a128a).encryptOK _ zeroSt _ emptyEnc_valid L2
  have hc := enc_c emptyEnc_valid L2 h1
  have fr : ∀ (p : Ptr) (n : Nat), p.blk ≠ 0 → p.blk ≠ 1 → bytesAt s1 p n = bytesAt zeroSt p n := by
    intro p n h0 h1'
    unfold bytesAt
    apply List.map_congr_left
    intro i _
    exact enc_frame emptyEnc_valid L2 h1 (fun hh => h0 hh.1) (fun hh => h1' hh.1)
  have hk : bytesAt s1 emptyDec.k 16 = zeros 16 := (fr _ _ (by decide) (by decide)).trans (zero_bytes _ _)
  have hn : bytesAt s1 emptyDec.npub 16 = zeros 16 := (fr _ _ (by decide) (by decide)).trans (zero_bytes _ _)
  have hk0 : bytesAt zeroSt emptyEnc.k 16 = zeros 16 := zero_bytes _ _
  have hn0 : bytesAt zeroSt emptyEnc.npub 16 = zeros 16 := zero_bytes _ _
  have hna : ¬ Target.a128aBi32Armv7m.accepts s1 emptyDec := by
    intro h
    have h : bytesAt s1 ⟨0, 0⟩ 16 = (Opt.PQ Opt.Armv7m.q).mac (bytesAt s1 emptyDec.k 16) (bytesAt s1 emptyDec.npub 16) [] [] := h
    have hc : bytesAt s1 ⟨0, 0⟩ 16 = isapA128a.mac (bytesAt zeroSt emptyEnc.k 16) (bytesAt zeroSt emptyEnc.npub 16) [] [] := hc
    rw [hk, hn, hc, hk0, hn0] at h
    exact Opt.Armv7m.mac_ne h
  obtain ⟨s2, h2, _⟩ := dec_reject emptyDec_valid.toValidDecIn L1 hna
  exact ⟨Sample.env, zeroSt, s1, s2, emptyEnc, emptyDec, emptyEnc_valid, emptyDec_valid, h1, rfl, rfl, rfl, rfl, rfl, rfl, h2⟩

end Props
