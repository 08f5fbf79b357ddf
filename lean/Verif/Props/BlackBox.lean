import Verif.Proof.BlackBox
import Verif.Proof.Calls
import Verif.Props.Sample
/-!
# The mode code uses the permutation as a black box (C48)

`t.aeadWith perm` is the code of the implementation `t` linked with an arbitrary function `perm` (number of rounds, bytes of the
state) in place of its permutation.  `{ t.set.spec with perm := perm }` is ISAP with the parameters of `t` over that function.
-/

namespace Props
open C Model Spec

/-- Functions that may be linked in: they map states to states. -/
def OnStates (t : Target) (perm : Nat → List Byte → List Byte) : Prop :=
  ∀ k S, S.length = t.set.spec.n → (perm k S).length = t.set.spec.n

/-- ISAP over another permutation. -/
abbrev isapOver (t : Target) (perm : Nat → List Byte → List Byte) : Params := { t.set.spec with perm := perm }

/-- Is the tag `T` accepted?  Equality with the tag of the specification, or, in the implementations that compare through the
permutation, equality of the images. -/
def acceptedOver (t : Target) (perm : Nat → List Byte → List Byte) (K N A C T : List Byte) : Prop :=
  if t.stp = true then Stp.image (isapOver t perm) ((isapOver t perm).macState N A C) T =
      Stp.image (isapOver t perm) ((isapOver t perm).macState N A C) ((isapOver t perm).mac K N A C)
  else T = (isapOver t perm).mac K N A C

/-- The queries of that comparison. -/
def testQueries (t : Target) (perm : Nat → List Byte → List Byte) (K N A C T : List Byte) : List (Nat × List Byte) :=
  if t.stp = true then (isapOver t perm).stpQueries K N A C T else []

section
variable {t : Target} {perm : Nat → List Byte → List Byte} {X : Aead}

theorem wf_over (h : OnStates t perm) : (isapOver t perm).Wf :=
  have W := t.set.cfgOK.wf
  ⟨W.r_pos, W.r_lt, W.n_ge, h⟩

theorem accWith_iff (K N A C T : List Byte) : t.accWith perm K N A C T ↔ acceptedOver t perm K N A C T := Iff.rfl

/-- **C48** Encryption: for every function in place of the permutation, the code computes ISAP over this function. -/
theorem C48_any_permutation_encrypt (h : OnStates t perm) (hX : t.aeadWith perm = some X) (e : Env) (s : St) (a : EncArgs)
    (V : ValidEnc e a) (L : t.limits.Enc e a) :
    ∃ s', Runs (X.encrypt a) e s 0 s' ∧
      (le64 (bytesAt s' a.clen 8)).toNat = a.mlen + 16 ∧
      bytesAt s' a.c (a.mlen + 16) = (isapOver t perm).encrypt (bytesAt s a.k 16) (bytesAt s a.npub 16) (bytesAt s a.ad a.adlen)
        (bytesAt s a.m a.mlen) := by
  obtain ⟨s', hr, hm⟩ := (t.linkedOK h hX).1 e s a V L
  have hl : ((isapOver t perm).encrypt (bytesAt s a.k 16) (bytesAt s a.npub 16) (bytesAt s a.ad a.adlen)
      (bytesAt s a.m a.mlen)).length = a.mlen + 16 := by
    rw [Params.encrypt, List.length_append, Params.length_enc, Params.length_mac (wf_over h) _ _ (by simp) (by simp), length_bytesAt]
  refine ⟨s', hr, ?_, ?_⟩
  · rw [bytesAt_mem_congr hm, bytesAt_putBytes_disjoint, bytesAt_putBytes_same' _ _ _ (by simp), le64_toLe64, BitVec.toNat_ofNat,
      Nat.mod_eq_of_lt V.mlen_lt]
    rw [hl]; exact V.clen_c
  · rw [bytesAt_mem_congr hm, bytesAt_putBytes_same' _ _ _ hl]

/-- **C48** Decryption. -/
theorem C48_any_permutation_decrypt (h : OnStates t perm) (hX : t.aeadWith perm = some X) (e : Env) (s : St) (d : DecArgs)
    (V : ValidDec e d) (L : t.limits.Dec e d) :
    (acceptedOver t perm (bytesAt s d.k 16) (bytesAt s d.npub 16) (bytesAt s d.ad d.adlen) (bytesAt s d.c (d.clen - 16))
        (bytesAt s (d.c + (d.clen - 16)) 16) →
      ∃ s', Runs (X.decrypt d) e s 0 s' ∧
        (le64 (bytesAt s' d.mlen 8)).toNat = d.clen - 16 ∧
        bytesAt s' d.m (d.clen - 16) = (isapOver t perm).enc (bytesAt s d.k 16) (bytesAt s d.npub 16) (bytesAt s d.c (d.clen - 16))) ∧
    (¬ acceptedOver t perm (bytesAt s d.k 16) (bytesAt s d.npub 16) (bytesAt s d.ad d.adlen) (bytesAt s d.c (d.clen - 16))
        (bytesAt s (d.c + (d.clen - 16)) 16) →
      ∃ s', Runs (X.decrypt d) e s (-1) s' ∧ ∀ b o, ¬ InBuf d.mlen 8 b o → s'.mem b o = s.mem b o) := by
  obtain ⟨h1, h2⟩ := (t.linkedOK h hX).2 e s d V.toValidDecIn L
  refine ⟨fun ha => ?_, fun ha => ?_⟩
  · obtain ⟨s', hr, hm⟩ := h1 ha V
    refine ⟨s', hr, ?_, ?_⟩
    · rw [bytesAt_mem_congr hm, bytesAt_putBytes_disjoint, bytesAt_putBytes_same' _ _ _ (by simp), le64_toLe64, BitVec.toNat_ofNat,
        Nat.mod_eq_of_lt (by have := V.clen_lt; omega)]
      rw [Params.length_enc, length_bytesAt]; exact V.mlen_m
    · rw [bytesAt_mem_congr hm, bytesAt_putBytes_same' _ _ _ (by simp)]
  · obtain ⟨s', hr, hm⟩ := h2 ha
    exact ⟨s', hr, fun b o hb => by rw [hm, putBytes_frame (by simp) hb]⟩

/-- **C48** Linked with the permutation of the specification, the code behaves as the implementation does. -/
theorem C48_instance (hc : t.conforming = true) (hX : t.aeadWith t.set.spec.perm = some X) (e : Env) (s : St) :
    (∀ a, ValidEnc e a → t.limits.Enc e a →
      ∃ s1 s2, Runs (t.aead.encrypt a) e s 0 s1 ∧ Runs (X.encrypt a) e s 0 s2 ∧ s1.mem = s2.mem) ∧
    (∀ d, ValidDec e d → t.limits.Dec e d →
      ∃ r s1 s2, Runs (t.aead.decrypt d) e s r s1 ∧ Runs (X.decrypt d) e s r s2 ∧ s1.mem = s2.mem) := by
  have O := t.linkedOK (perm := t.set.spec.perm) t.set.cfgOK.wf.perm_len hX
  refine ⟨fun a V L => ?_, fun d V L => ?_⟩
  · obtain ⟨s1, h1, m1⟩ := t.encryptOK e s a V L
    obtain ⟨s2, h2, m2⟩ := O.1 e s a V L
    exact ⟨s1, s2, h1, h2, by rw [m1, m2, t.spec_eq hc]⟩
  · obtain ⟨r, s1, h1⟩ := dec_exists V L s
    obtain ⟨a1, a2⟩ := O.2 e s d V.toValidDecIn L
    have hacc : t.accepts s d ↔ t.accWith t.set.spec.perm (bytesAt s d.k 16) (bytesAt s d.npub 16) (bytesAt s d.ad d.adlen)
        (bytesAt s d.c (d.clen - 16)) (bytesAt s (d.c + (d.clen - 16)) 16) := by
      rw [Target.accepts, Target.acc, t.spec_eq hc]; exact Iff.rfl
    rcases dec_run V L h1 with ⟨ha, rfl, m1⟩ | ⟨ha, rfl, m1⟩
    · obtain ⟨s2, h2, m2⟩ := a1 (hacc.1 ha) V
      exact ⟨0, s1, s2, h1, h2, by rw [m1, m2, Target.plain, t.spec_eq hc]⟩
    · obtain ⟨s2, h2, m2⟩ := a2 fun h => ha (hacc.2 h)
      exact ⟨-1, s1, s2, h1, h2, by rw [m1, m2]⟩

end

section
variable {t : Target} {perm perm' : Nat → List Byte → List Byte} {X X' : Aead}

/-- **C48** What encryption does depends on the values of the permutation at the prescribed inputs alone. -/
theorem C48_prescribed_encrypt (h : OnStates t perm) (h' : OnStates t perm') (hX : t.aeadWith perm = some X)
    (hX' : t.aeadWith perm' = some X') (e : Env) (s : St) (a : EncArgs) (V : ValidEnc e a) (L : t.limits.Enc e a)
    (hq : ∀ x ∈ (isapOver t perm).encryptQueries (bytesAt s a.k 16) (bytesAt s a.npub 16) (bytesAt s a.ad a.adlen)
      (bytesAt s a.m a.mlen), perm' x.1 x.2 = perm x.1 x.2) :
    ∃ s1 s2, Runs (X.encrypt a) e s 0 s1 ∧ Runs (X'.encrypt a) e s 0 s2 ∧ s1.mem = s2.mem := by
  obtain ⟨s1, h1, m1⟩ := (t.linkedOK h hX).1 e s a V L
  obtain ⟨s2, h2, m2⟩ := (t.linkedOK h' hX').1 e s a V L
  refine ⟨s1, s2, h1, h2, ?_⟩
  rw [m1, m2]
  congr 2
  exact (Params.agrees_encrypt (P := isapOver t perm) (wf_over h).r_pos hq).symm

/-- **C48** Likewise decryption, in which a rejected tag means that the keystream is not computed. -/
theorem C48_prescribed_decrypt (h : OnStates t perm) (h' : OnStates t perm') (hX : t.aeadWith perm = some X)
    (hX' : t.aeadWith perm' = some X') (e : Env) (s : St) (d : DecArgs) (V : ValidDec e d) (L : t.limits.Dec e d)
    (K N A C T : List Byte) (hK : K = bytesAt s d.k 16) (hN : N = bytesAt s d.npub 16) (hA : A = bytesAt s d.ad d.adlen)
    (hC : C = bytesAt s d.c (d.clen - 16)) (hT : T = bytesAt s (d.c + (d.clen - 16)) 16)
    (hq : ∀ x ∈ (isapOver t perm).decryptQueries (acceptedOver t perm K N A C T) (testQueries t perm K N A C T) K N A C,
      perm' x.1 x.2 = perm x.1 x.2) :
    ∃ r s1 s2, Runs (X.decrypt d) e s r s1 ∧ Runs (X'.decrypt d) e s r s2 ∧ s1.mem = s2.mem := by
  subst hK hN hA hC hT
  obtain ⟨a1, a2⟩ := (t.linkedOK h hX).2 e s d V.toValidDecIn L
  obtain ⟨b1, b2⟩ := (t.linkedOK h' hX').2 e s d V.toValidDecIn L
  generalize hK : bytesAt s d.k 16 = K at *
  generalize hN : bytesAt s d.npub 16 = N at *
  generalize hA : bytesAt s d.ad d.adlen = A at *
  generalize hC : bytesAt s d.c (d.clen - 16) = C at *
  generalize hT : bytesAt s (d.c + (d.clen - 16)) 16 = T at *
  have hq : (isapOver t perm).Agrees perm' _ := hq
  rw [Params.decryptQueries, Params.agrees_append, Params.agrees_append] at hq
  obtain ⟨⟨q1, q2⟩, q3⟩ := hq
  have hacc : t.accWith perm' K N A C T ↔ t.accWith perm K N A C T := by
    unfold Target.accWith
    unfold testQueries at q2
    split
    · rename_i hs
      rw [if_pos hs] at q2
      exact Params.agrees_accepts (P := isapOver t perm) (Params.agrees_append.2 ⟨q1, q2⟩)
    · exact iff_of_eq (congrArg (T = ·) (Params.agrees_mac (P := isapOver t perm) q1))
  by_cases ha : t.accWith perm K N A C T
  · obtain ⟨s1, h1, m1⟩ := a1 ha V
    obtain ⟨s2, h2, m2⟩ := b1 (hacc.2 ha) V
    refine ⟨0, s1, s2, h1, h2, ?_⟩
    rw [m1, m2]
    congr 2
    rw [if_pos ((accWith_iff ..).1 ha)] at q3
    exact (Params.agrees_enc (P := isapOver t perm) (wf_over h).r_pos q3).symm
  · obtain ⟨s1, h1, m1⟩ := a2 ha
    obtain ⟨s2, h2, m2⟩ := b2 fun h => ha (hacc.1 h)
    exact ⟨-1, s1, s2, h1, h2, by rw [m1, m2]⟩

/-- **C48** All prescribed inputs are states, and there are as many as the lengths determine: for encryption of `m` bytes with
`a` bytes of associated data `⌊a/r⌋ + ⌊m/r⌋ + 133`, and, if there is a message, `129 + ⌈m/r⌉` more. -/
theorem C48_count (h : OnStates t perm) (K N A M : List Byte) (hK : K.length = 16) (hN : N.length = 16) :
    (∀ x ∈ (isapOver t perm).encryptQueries K N A M, x.2.length = t.set.spec.n) ∧
    ((isapOver t perm).encryptQueries K N A M).length =
      A.length / t.set.spec.r + M.length / t.set.spec.r + 133 +
        if M.length = 0 then 0 else 129 + (M.length + t.set.spec.r - 1) / t.set.spec.r := by
  have W := wf_over h
  constructor
  · intro x hx
    rcases List.mem_append.1 hx with hx | hx
    · exact Params.len_encQueries W hK hN _ x hx
    · exact Params.len_macQueries W hK hN _ _ x hx
  · rw [Params.encryptQueries, List.length_append, Params.count_enc _ _ hN, Params.count_mac W _ _ _ hN, Params.length_enc]
    exact Nat.add_comm ..

open Classical in
/-- **C48** Decryption: `⌊a/r⌋ + ⌊c/r⌋ + 133` for a ciphertext of `c` bytes without the tag, two if the tags are compared through
the permutation, and `129 + ⌈c/r⌉` only if the tag is accepted and there is something to decrypt. -/
theorem C48_count_decrypt (h : OnStates t perm) (K N A C T : List Byte) (hN : N.length = 16) :
    ((isapOver t perm).decryptQueries (acceptedOver t perm K N A C T) (testQueries t perm K N A C T) K N A C).length =
      A.length / t.set.spec.r + C.length / t.set.spec.r + 133 + (if t.stp = true then 2 else 0) +
        if acceptedOver t perm K N A C T ∧ C.length ≠ 0 then 129 + (C.length + t.set.spec.r - 1) / t.set.spec.r else 0 := by
  rw [Params.decryptQueries, List.length_append, List.length_append, Params.count_mac (wf_over h) _ _ _ hN, testQueries]
  congr 1
  · congr 1
    split <;> rfl
  · by_cases ha : acceptedOver t perm K N A C T
    · rw [if_pos ha, Params.count_enc _ _ hN]
      by_cases h0 : C.length = 0
      · rw [if_pos h0, if_neg fun h => h.2 h0]
      · rw [if_neg h0, if_pos ⟨ha, h0⟩]
    · rw [if_neg ha, if_neg fun h => ha h.1]
      rfl

end

/-! Non-vacuity: the reversal of the bytes of the state, and a function that differs from it in one place only. -/

/-- Not a cryptographic permutation. -/
def reversal (_ : Nat) (S : List Byte) : List Byte := S.reverse

example (t : Target) : OnStates t reversal := fun k S h => by rw [reversal, List.length_reverse, h]

example : (Target.a128aAvx512 .lp64).aeadWith reversal = none := rfl

example (t : Target) (h : ∀ d, t ≠ .a128aAvx512 d) : ∃ X, t.aeadWith reversal = some X := by
  cases t <;> first | exact ⟨_, rfl⟩ | exact absurd rfl (h _)

example (t : Target) : ValidDec Sample.env Sample.dec ∧ t.limits.Dec Sample.env Sample.dec := ⟨Sample.validDec, Sample.limitsDec t⟩

/-- With the reversal, `isapa128av20/bi_32_armv7m`, whose own permutation is not Ascon-p, computes ISAP over the reversal. -/
example : ∃ X s', Target.a128aBi32Armv7m.aeadWith reversal = some X ∧ Runs (X.encrypt Sample.enc) Sample.env Sample.st 0 s' ∧
    bytesAt s' Sample.enc.c 19 = (isapOver .a128aBi32Armv7m reversal).encrypt (bytesAt Sample.st Sample.enc.k 16)
      (bytesAt Sample.st Sample.enc.npub 16) (bytesAt Sample.st Sample.enc.ad 20) (bytesAt Sample.st Sample.enc.m 3) := by
  have hl : OnStates .a128aBi32Armv7m reversal := fun k S h => by rw [reversal, List.length_reverse, h]
  obtain ⟨s', h1, -, h2⟩ := C48_any_permutation_encrypt (t := .a128aBi32Armv7m) hl rfl _ Sample.st _ Sample.validEnc
    (Sample.limitsEnc _)
  exact ⟨_, s', rfl, h1, h2⟩

/-- The reversal, but for one state that is replaced by another. -/
def altered (k : Nat) (S : List Byte) : List Byte := if k = 12 ∧ S = zeros 40 then List.replicate 40 1 else S.reverse

/-- The two functions differ, but not in the prescribed inputs of the sample call (checked by evaluation of this one case). -/
example : altered 12 (zeros 40) ≠ reversal 12 (zeros 40) ∧ ∃ X X' s1 s2,
    Target.a128aOpt64.aeadWith reversal = some X ∧ Target.a128aOpt64.aeadWith altered = some X' ∧
    Runs (X.encrypt Sample.enc) Sample.env Sample.st 0 s1 ∧ Runs (X'.encrypt Sample.enc) Sample.env Sample.st 0 s2 ∧
    s1.mem = s2.mem := by
  refine ⟨by decide, ?_⟩
  have hl : OnStates .a128aOpt64 reversal := fun k S h => by rw [reversal, List.length_reverse, h]
  have hl' : OnStates .a128aOpt64 altered := fun k S h => by
    unfold altered
    split
    · exact List.length_replicate
    · rw [List.length_reverse, h]
  have hq : ∀ x ∈ (isapOver .a128aOpt64 reversal).encryptQueries (bytesAt Sample.st Sample.enc.k 16)
      (bytesAt Sample.st Sample.enc.npub 16) (bytesAt Sample.st Sample.enc.ad 20) (bytesAt Sample.st Sample.enc.m 3),
      altered x.1 x.2 = reversal x.1 x.2 := by decide +kernel
  obtain ⟨s1, s2, h1, h2, h3⟩ := C48_prescribed_encrypt (t := .a128aOpt64) hl hl' rfl rfl _ Sample.st _ Sample.validEnc
    (Sample.limitsEnc _) hq
  exact ⟨_, _, s1, s2, rfl, rfl, h1, h2, h3⟩

end Props
