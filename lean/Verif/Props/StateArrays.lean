import Verif.Proof.StateArrays
import Verif.Props.Placement
/-!
# The arrays `state` in isapa128v20/opt_64 and `ke` in isapa128v20/opt_32 (C51)
-/

namespace Props
open C Model Spec

/-- isapa128v20/opt_64 with the array `state` of `isap_enc` at `u` and that of `isap_mac` at `v`. -/
abbrev opt64In (d : DataModel) (u v : Ptr) : Aead := (A128.Opt64.implIn (A128.Opt64.cfg d) u v).aead

/-- `crypto_aead_decrypt` of isapa128av20/avx_512 with the array `state` of `isap_enc` at `u` and that of `isap_mac` at `v`. -/
abbrev avxDecryptIn (d : DataModel) (u v : Ptr) : DecArgs → CM Int := (A128.Opt64.implIn (A128.Avx.cfg d) u v).aead.decrypt

/-- **C51**, the property of isapa128v20/opt_64: valid calls end normally wherever the arrays `state` are. -/
def AnyState (d : DataModel) : Prop :=
  (∀ (e : Env) (s : St) (a : EncArgs) (u v : Ptr), ValidEnc e a → (Target.a128Opt64 d).limits.Enc e a → StateArray e a 40 u →
    StateArray e a 40 v → ∃ r s', Runs ((opt64In d u v).encrypt a) e s r s') ∧
  (∀ (e : Env) (s : St) (a : DecArgs) (u v : Ptr), ValidDec e a → (Target.a128Opt64 d).limits.Dec e a → StateArrayDec e a 40 u →
    StateArrayDec e a 40 v → ∃ r s', Runs ((opt64In d u v).decrypt a) e s r s')

theorem opt64In_enc (d : DataModel) {e : Env} {s : St} {a : EncArgs} {u v : Ptr} (V : ValidEnc e a) (L : (Target.a128Opt64 d).limits.Enc e a)
    (U : StateArray e a 40 u) (U' : StateArray e a 40 v) (hu : Aligned e 8 u 40) (hv : Aligned e 8 v 40) :
    ∃ s', Runs ((opt64In d u v).encrypt a) e s 0 s' ∧
      SameExcept 40 u v s' (putBytes (putBytes s a.clen (toLe64 (BitVec.ofNat 64 (a.mlen + 16)))) a.c
        (isapA128.encrypt (bytesAt s a.k 16) (bytesAt s a.npub 16) (bytesAt s a.ad a.adlen) (bytesAt s a.m a.mlen))) ∧
      (0 < a.mlen → Disjoint u 40 v 40 →
        bytesAt s' u 24 = isapA128.rk (bytesAt s a.k 16) (isapA128.iv 3) (bytesAt s a.npub 16) 24) :=
  encryptArrOK (A128.Opt64.cfgOK d).isAscon.wf (fun _ _ => A128.Opt64.length_key (A128.Opt64.cfgOK d)) (by decide)
    (A128.Opt64.encIn (v := v) (A128.Opt64.cfgOK d) u) (A128.Opt64.macIn (u := u) (A128.Opt64.cfgOK d) v) rfl ⟨2, rfl⟩ V L U U' hu hv

theorem opt64In_dec (d : DataModel) {e : Env} {s : St} {a : DecArgs} {u v : Ptr} (V : ValidDecIn e a)
    (L : (Target.a128Opt64 d).limits.Dec e a) (U : StateArrayDec e a 40 u) (U' : StateArrayDec e a 40 v) (hu : Aligned e 8 u 40)
    (hv : Aligned e 8 v 40) :
    (tagEq isapA128 (bytesAt s a.k 16) (bytesAt s a.npub 16) (bytesAt s a.ad a.adlen) (bytesAt s a.c (a.clen - 16))
        (bytesAt s (a.c + (a.clen - 16)) 16) → ValidDec e a →
      ∃ s', Runs ((opt64In d u v).decrypt a) e s 0 s' ∧
        SameExcept 40 u v s' (putBytes (putBytes s a.mlen (toLe64 (BitVec.ofNat 64 (a.clen - 16)))) a.m
          (isapA128.enc (bytesAt s a.k 16) (bytesAt s a.npub 16) (bytesAt s a.c (a.clen - 16)))) ∧
        (16 < a.clen → bytesAt s' u 24 = isapA128.rk (bytesAt s a.k 16) (isapA128.iv 3) (bytesAt s a.npub 16) 24)) ∧
    (¬ tagEq isapA128 (bytesAt s a.k 16) (bytesAt s a.npub 16) (bytesAt s a.ad a.adlen) (bytesAt s a.c (a.clen - 16))
        (bytesAt s (a.c + (a.clen - 16)) 16) →
      ∃ s', Runs ((opt64In d u v).decrypt a) e s (-1) s' ∧
        SameExcept 40 u v s' (putBytes s a.mlen (toLe64 (BitVec.ofNat 64 (a.clen - 16))))) :=
  decryptArrOK (s := s) (A128.Opt64.cfgOK d).isAscon.wf (fun _ _ => A128.Opt64.length_key (A128.Opt64.cfgOK d)) (by decide)
    (A128.Opt64.encIn (v := v) (A128.Opt64.cfgOK d) u) (A128.Opt64.macIn (u := u) (A128.Opt64.cfgOK d) v) V L U U' hu hv

/-- **C51** If the arrays are 8-aligned, encryption has the result of `crypto_aead_encrypt` in the other theorems, and it leaves the
same memory, except for the arrays.  (They may overlap: they do not exist at the same time.) -/
theorem C51_state_encrypt_partial (d : DataModel) (e : Env) (s : St) (a : EncArgs) (u v : Ptr) (V : ValidEnc e a)
    (L : (Target.a128Opt64 d).limits.Enc e a) (U : StateArray e a 40 u) (U' : StateArray e a 40 v) (hu : Aligned e 8 u 40)
    (hv : Aligned e 8 v 40) :
    ∃ s1 s2, Runs ((Target.a128Opt64 d).aead.encrypt a) e s 0 s1 ∧ Runs ((opt64In d u v).encrypt a) e s 0 s2 ∧ SameExcept 40 u v s2 s1 := by
  obtain ⟨s1, h1, m1⟩ := (Target.a128Opt64 d).encryptOK e s a V L
  obtain ⟨s2, h2, ho, _⟩ := opt64In_enc (s := s) d V L U U' hu hv
  exact ⟨s1, s2, h1, h2, fun b o hb hb' => by rw [ho b o hb hb', m1]; rfl⟩

/-- **C51** The same for decryption. -/
theorem C51_state_decrypt_partial (d : DataModel) (e : Env) (s : St) (a : DecArgs) (u v : Ptr) (V : ValidDec e a)
    (L : (Target.a128Opt64 d).limits.Dec e a) (U : StateArrayDec e a 40 u) (U' : StateArrayDec e a 40 v) (hu : Aligned e 8 u 40)
    (hv : Aligned e 8 v 40) :
    ∃ r s1 s2, Runs ((Target.a128Opt64 d).aead.decrypt a) e s r s1 ∧ Runs ((opt64In d u v).decrypt a) e s r s2 ∧
      SameExcept 40 u v s2 s1 := by
  have K := opt64In_dec (s := s) d V.toValidDecIn L U U' hu hv
  obtain ⟨r, s1, h⟩ := dec_exists V L s
  rcases dec_run V L h with ⟨hacc, rfl, hm⟩ | ⟨hacc, rfl, hm⟩
  · obtain ⟨s2, h2, ho, _⟩ := K.1 hacc V
    exact ⟨_, s1, s2, h, h2, fun b o h1 h2 => by rw [ho b o h1 h2, hm]; rfl⟩
  · obtain ⟨s2, h2, ho⟩ := K.2 hacc
    exact ⟨_, s1, s2, h, h2, fun b o h1 h2 => by rw [ho b o h1 h2, hm]⟩

/-- **C51** The same for decryption by isapa128av20/avx_512. -/
theorem C51_state_avx_partial (d : DataModel) (e : Env) (s : St) (a : DecArgs) (u v : Ptr) (V : ValidDec e a)
    (L : (Target.a128aAvx512 d).limits.Dec e a) (U : StateArrayDec e a 40 u) (U' : StateArrayDec e a 40 v) (hu : Aligned e 8 u 40)
    (hv : Aligned e 8 v 40) :
    ∃ r s1 s2, Runs ((Target.a128aAvx512 d).aead.decrypt a) e s r s1 ∧ Runs (avxDecryptIn d u v a) e s r s2 ∧
      SameExcept 40 u v s2 s1 := by
  have L' : (⟨8, 8, d.ulong, id⟩ : Limits).Dec e a :=
    { k := L.k, npub := L.npub, ad := L.ad, c := L.c, m := L.m, over := L.over
      adlen_lt := Nat.lt_of_lt_of_le L.adlen_lt (Nat.min_le_right ..), clen_lt := Nat.lt_of_lt_of_le L.clen_lt (Nat.min_le_right ..) }
  have K := decryptArrOK (s := s) (A128.Avx.cfgOK d).isAscon.wf (fun _ _ => A128.Opt64.length_key (A128.Avx.cfgOK d)) (by decide)
    (A128.Opt64.encIn (v := v) (A128.Avx.cfgOK d) u) (A128.Opt64.macIn (u := u) (A128.Avx.cfgOK d) v) V.toValidDecIn L' U U' hu hv
  obtain ⟨r, s1, h⟩ := dec_exists V L s
  rcases dec_run V L h with ⟨hacc, rfl, hm⟩ | ⟨hacc, rfl, hm⟩
  · obtain ⟨s2, h2, ho, _⟩ := K.1 hacc V
    exact ⟨_, s1, s2, h, h2, fun b o h1 h2 => by rw [ho b o h1 h2, hm]; rfl⟩
  · obtain ⟨s2, h2, ho⟩ := K.2 hacc
    exact ⟨_, s1, s2, h, h2, fun b o h1 h2 => by rw [ho b o h1 h2, hm]⟩

/-- Nothing clears the array: after encryption the derived key of the stream cipher remains in the memory of the function (if the
array of `isap_mac` has not been put in the same place). -/
theorem C51_key_remains (d : DataModel) (e : Env) (s s' : St) (a : EncArgs) (u v : Ptr) (V : ValidEnc e a)
    (L : (Target.a128Opt64 d).limits.Enc e a) (U : StateArray e a 40 u) (U' : StateArray e a 40 v) (hu : Aligned e 8 u 40)
    (hv : Aligned e 8 v 40) (hm : 0 < a.mlen) (huv : Disjoint u 40 v 40) (r : Int) (h : Runs ((opt64In d u v).encrypt a) e s r s') :
    bytesAt s' u 24 = isapA128.rk (bytesAt s a.k 16) (isapA128.iv 3) (bytesAt s a.npub 16) 24 := by
  obtain ⟨s2, h2, _, hk⟩ := opt64In_enc (s := s) d V L U U' hu hv
  obtain ⟨_, rfl⟩ := h.det h2
  exact hk hm huv

/-- After decryption it remains wherever the other array is. -/
theorem C51_key_remains_dec (d : DataModel) (e : Env) (s s' : St) (a : DecArgs) (u v : Ptr) (V : ValidDec e a)
    (L : (Target.a128Opt64 d).limits.Dec e a) (U : StateArrayDec e a 40 u) (U' : StateArrayDec e a 40 v) (hu : Aligned e 8 u 40)
    (hv : Aligned e 8 v 40) (hm : 16 < a.clen) (h : Runs ((opt64In d u v).decrypt a) e s 0 s') :
    bytesAt s' u 24 = isapA128.rk (bytesAt s a.k 16) (isapA128.iv 3) (bytesAt s a.npub 16) 24 := by
  have K := opt64In_dec (s := s) d V.toValidDecIn L U U' hu hv
  by_cases hacc : tagEq isapA128 (bytesAt s a.k 16) (bytesAt s a.npub 16) (bytesAt s a.ad a.adlen) (bytesAt s a.c (a.clen - 16))
      (bytesAt s (a.c + (a.clen - 16)) 16)
  · obtain ⟨s2, h2, _, hk⟩ := K.1 hacc V
    obtain ⟨_, rfl⟩ := h.det h2
    exact hk hm
  · obtain ⟨s2, h2, _⟩ := K.2 hacc
    exact absurd (h.det h2).1 (by decide)

theorem store64_inv {e : Env} {s s' : St} {p : Ptr} {x : BitVec 64} {r : Unit} (h : Runs (store64 p x) e s r s') (he : e.strict = true) :
    (e.base p.blk + p.off) % 8 = 0 := by
  obtain ⟨tr, h⟩ := h
  simp only [store64, store, run] at h
  split at h
  · split at h
    · rename_i ha
      simpa [alignedOk, he] using ha
    · simp at h
  · simp at h

theorem macIn_aligned {D : A128.Opt64.Cfg} {v k npub ad c : Ptr} {adlen clen : Nat} {e : Env} (he : e.strict = true) {s s' : St}
    {r : List Byte} (h : Runs (A128.Opt64.isapMacIn D v k npub ad adlen c clen) e s r s') : (e.base v.blk + v.off) % 8 = 0 := by
  unfold A128.Opt64.isapMacIn at h
  obtain ⟨_, _, _, h⟩ := runs_bind_inv h
  obtain ⟨_, _, h, _⟩ := runs_bind_inv h
  exact store64_inv h he

theorem encIn_aligned {D : A128.Opt64.Cfg} {u k npub m c : Ptr} {mlen : Nat} {e : Env} (he : e.strict = true) {s s' : St}
    {r : Unit} (h : Runs (A128.Opt64.isapEncIn D u k npub m mlen c) e s r s') : (e.base u.blk + u.off) % 8 = 0 := by
  unfold A128.Opt64.isapEncIn at h
  obtain ⟨_, _, h, _⟩ := runs_bind_inv h
  unfold A128.Opt64.isapRkTo at h
  iterate 4 obtain ⟨_, _, _, h⟩ := runs_bind_inv h
  obtain ⟨_, _, h, _⟩ := runs_bind_inv h
  exact store64_inv h he

/-- **C51**, the exception: on a platform that does not tolerate misaligned accesses, every encryption is undefined if the compiler
has placed the array of `isap_mac`, or, unless the message is empty, that of `isap_enc`, at an address that is not a multiple of 8. -/
theorem C51_state_misaligned (d : DataModel) (e : Env) (he : e.strict = true) (s : St) (a : EncArgs) (u v : Ptr)
    (h : (e.base v.blk + v.off) % 8 ≠ 0 ∨ (0 < a.mlen ∧ (e.base u.blk + u.off) % 8 ≠ 0)) :
    IsUB ((opt64In d u v).encrypt a) e s := by
  rcases runs_or_ub ((opt64In d u v).encrypt a) e s with ⟨r, s', hr⟩ | hr
  · obtain ⟨_, _, _, hr⟩ := runs_bind_inv hr
    obtain ⟨_, _, henc, hr⟩ := runs_bind_inv hr
    obtain ⟨_, _, hmac, _⟩ := runs_bind_inv hr
    rcases h with h | ⟨hm, h⟩
    · exact absurd (macIn_aligned he hmac) h
    · unfold ifThen at henc
      obtain ⟨b, _, hb, hrun⟩ := runs_bind_inv henc
      obtain ⟨rfl, rfl⟩ := hb.det (runs_branch _ _ _)
      rw [if_pos (by simpa using hm)] at hrun
      exact absurd (encIn_aligned he hrun) h
  · exact hr

/-- **C51**, the exception for decryption. -/
theorem C51_state_misaligned_dec (d : DataModel) (e : Env) (he : e.strict = true) (s : St) (a : DecArgs) (u v : Ptr)
    (h : (e.base v.blk + v.off) % 8 ≠ 0) :
    IsUB ((opt64In d u v).decrypt a) e s ∧ IsUB (avxDecryptIn d u v a) e s := by
  have key : ∀ D, IsUB ((A128.Opt64.implIn D u v).aead.decrypt a) e s := by
    intro D
    rcases runs_or_ub ((A128.Opt64.implIn D u v).aead.decrypt a) e s with ⟨r, s', hr⟩ | hr
    · obtain ⟨_, _, _, hr⟩ := runs_bind_inv hr
      obtain ⟨_, _, _, hr⟩ := runs_bind_inv hr
      obtain ⟨_, _, hmac, _⟩ := runs_bind_inv hr
      exact absurd (macIn_aligned he hmac) h
    · exact hr
  exact ⟨key _, key _⟩

theorem frame_state (n b o : Nat) (hb : 9 ≤ b) : StateArrayDec frameEnv Sample.dec n ⟨b, o⟩ where
  wr := fun _ _ => ⟨rfl, rfl⟩
  k := .inr (.inr (.inl (by simp [Sample.dec]; omega)))
  npub := .inr (.inr (.inl (by simp [Sample.dec]; omega)))
  ad := .inr (.inr (.inl (by simp [Sample.dec]; omega)))
  c := .inr (.inr (.inl (by simp [Sample.dec]; omega)))
  m := .inr (.inr (.inl (by simp [Sample.dec]; omega)))
  mlen := .inr (.inr (.inl (by simp [Sample.dec]; omega)))

/-- **C51 is false** of isapa128v20/opt_64, whatever the sizes of the integer types: with all buffers of the caller aligned. -/
theorem C51_state_false (d : DataModel) : ¬ AnyState d := by
  intro h
  obtain ⟨r, s', tr, hr⟩ := h.2 frameEnv Sample.st Sample.dec ⟨10, 0⟩ ⟨9, 0⟩ frame_valid
    (frame_limits (.a128Opt64 d) (Nat.succ_ne_zero _)) (frame_state _ _ _ (by decide)) (frame_state _ _ _ (by decide))
  obtain ⟨⟨u, hub⟩, _⟩ := C51_state_misaligned_dec d frameEnv rfl Sample.st Sample.dec ⟨10, 0⟩ ⟨9, 0⟩ (by decide)
  rw [hr] at hub
  exact nomatch hub

/-! ### The array `ke` of opt_32 and opt_32_armv67m -/

/-- isapa128v20/opt_32 (`arm` = false) or opt_32_armv67m with the array `ke` of `isap_enc` at `p`. -/
def opt32In : (arm : Bool) → Ptr → Aead
  | false, p => (A128.Opt32.implIn A128.Opt32.prims p).aead
  | true, p => (A128.Opt32.implIn A128.Opt32.primsArm p).aead

/-- The implementation of the other theorems. -/
def opt32 : (arm : Bool) → Target
  | false => .a128Opt32
  | true => .a128Opt32Armv67m

/-- **C51**, the property of these implementations: valid calls end normally wherever the array `ke` is. -/
def AnyKe (arm : Bool) : Prop :=
  (∀ (e : Env) (s : St) (a : EncArgs) (p : Ptr), ValidEnc e a → (opt32 arm).limits.Enc e a → StateArray e a 24 p →
    ∃ r s', Runs ((opt32In arm p).encrypt a) e s r s') ∧
  (∀ (e : Env) (s : St) (a : DecArgs) (p : Ptr), ValidDec e a → (opt32 arm).limits.Dec e a → StateArrayDec e a 24 p →
    ∃ r s', Runs ((opt32In arm p).decrypt a) e s r s')

theorem keIn_enc {D : A128.Opt32.Prims} {q : Nat → Opt.State → Opt.State} (O : A128.Opt32.PermOK D q) {P : Params}
    (hP : A128.Opt32.PQ q = P) {e : Env} {s : St} {a : EncArgs} {p : Ptr} (V : ValidEnc e a) (L : Limits.byWordsTag.Enc e a)
    (U : StateArray e a 24 p) (hp : Aligned e 4 p 24) :
    ∃ s', Runs ((A128.Opt32.implIn D p).aead.encrypt a) e s 0 s' ∧
      SameExcept 24 p p s' (putBytes (putBytes s a.clen (toLe64 (BitVec.ofNat 64 (a.mlen + 16)))) a.c
        (P.encrypt (bytesAt s a.k 16) (bytesAt s a.npub 16) (bytesAt s a.ad a.adlen) (bytesAt s a.m a.mlen))) := by
  subst hP
  obtain ⟨s', h, ho, _⟩ := encryptArrOK (s := s) A128.Opt32.isAsconQ.wf (fun _ _ _ _ => by simp [A128.Opt32.keBytes]) (by decide)
    (A128.Opt32.encIn O p) (A128.Opt32.macIn O p p) rfl ⟨2, rfl⟩ V L U U hp hp
  exact ⟨s', h, ho⟩

theorem keIn_dec {D : A128.Opt32.Prims} {q : Nat → Opt.State → Opt.State} (O : A128.Opt32.PermOK D q) {P : Params}
    (hP : A128.Opt32.PQ q = P) {e : Env} {s : St} {a : DecArgs} {p : Ptr} (V : ValidDec e a) (L : Limits.byWordsTag.Dec e a)
    (U : StateArrayDec e a 24 p) (hp : Aligned e 4 p 24) :
    (tagEq P (bytesAt s a.k 16) (bytesAt s a.npub 16) (bytesAt s a.ad a.adlen) (bytesAt s a.c (a.clen - 16))
        (bytesAt s (a.c + (a.clen - 16)) 16) →
      ∃ s', Runs ((A128.Opt32.implIn D p).aead.decrypt a) e s 0 s' ∧
        SameExcept 24 p p s' (putBytes (putBytes s a.mlen (toLe64 (BitVec.ofNat 64 (a.clen - 16)))) a.m
          (P.enc (bytesAt s a.k 16) (bytesAt s a.npub 16) (bytesAt s a.c (a.clen - 16))))) ∧
    (¬ tagEq P (bytesAt s a.k 16) (bytesAt s a.npub 16) (bytesAt s a.ad a.adlen) (bytesAt s a.c (a.clen - 16))
        (bytesAt s (a.c + (a.clen - 16)) 16) →
      ∃ s', Runs ((A128.Opt32.implIn D p).aead.decrypt a) e s (-1) s' ∧
        SameExcept 24 p p s' (putBytes s a.mlen (toLe64 (BitVec.ofNat 64 (a.clen - 16))))) := by
  subst hP
  have K := decryptArrOK (s := s) A128.Opt32.isAsconQ.wf (fun _ _ _ _ => by simp [A128.Opt32.keBytes]) (by decide)
    (A128.Opt32.encIn O p) (A128.Opt32.macIn O p p) V.toValidDecIn L U U hp hp
  refine ⟨fun h => ?_, K.2⟩
  obtain ⟨s', h, ho, _⟩ := K.1 h V
  exact ⟨s', h, ho⟩

/-- **C51** If `ke` is 4-aligned, encryption has the result of `crypto_aead_encrypt` in the other theorems, and it leaves the same
memory, except for the array. -/
theorem C51_ke_encrypt_partial (arm : Bool) (e : Env) (s : St) (a : EncArgs) (p : Ptr) (V : ValidEnc e a)
    (L : (opt32 arm).limits.Enc e a) (U : StateArray e a 24 p) (hp : Aligned e 4 p 24) :
    ∃ s1 s2, Runs ((opt32 arm).aead.encrypt a) e s 0 s1 ∧ Runs ((opt32In arm p).encrypt a) e s 0 s2 ∧ SameExcept 24 p p s2 s1 := by
  obtain ⟨s1, h1, m1⟩ := (opt32 arm).encryptOK e s a V L
  have K : ∃ s', Runs ((opt32In arm p).encrypt a) e s 0 s' ∧
      SameExcept 24 p p s' (putBytes (putBytes s a.clen (toLe64 (BitVec.ofNat 64 (a.mlen + 16)))) a.c ((opt32 arm).spec.encrypt
        (bytesAt s a.k 16) (bytesAt s a.npub 16) (bytesAt s a.ad a.adlen) (bytesAt s a.m a.mlen))) := by
    cases arm with
    | false => exact keIn_enc A128.Opt32.permOK (P := (Target.a128Opt32).spec) rfl V L U hp
    | true => exact keIn_enc A128.Opt32.permOKArm (P := (Target.a128Opt32Armv67m).spec) rfl V L U hp
  obtain ⟨s2, h2, ho⟩ := K
  exact ⟨s1, s2, h1, h2, fun b o hb hb' => by rw [ho b o hb hb', m1]⟩

/-- **C51** The same for decryption. -/
theorem C51_ke_decrypt_partial (arm : Bool) (e : Env) (s : St) (a : DecArgs) (p : Ptr) (V : ValidDec e a)
    (L : (opt32 arm).limits.Dec e a) (U : StateArrayDec e a 24 p) (hp : Aligned e 4 p 24) :
    ∃ r s1 s2, Runs ((opt32 arm).aead.decrypt a) e s r s1 ∧ Runs ((opt32In arm p).decrypt a) e s r s2 ∧ SameExcept 24 p p s2 s1 := by
  have K : ((opt32 arm).accepts s a →
      ∃ s', Runs ((opt32In arm p).decrypt a) e s 0 s' ∧
        SameExcept 24 p p s' (putBytes (putBytes s a.mlen (toLe64 (BitVec.ofNat 64 (a.clen - 16)))) a.m ((opt32 arm).plain s a))) ∧
      (¬ (opt32 arm).accepts s a →
      ∃ s', Runs ((opt32In arm p).decrypt a) e s (-1) s' ∧
        SameExcept 24 p p s' (putBytes s a.mlen (toLe64 (BitVec.ofNat 64 (a.clen - 16))))) := by
    cases arm with
    | false => exact keIn_dec A128.Opt32.permOK (P := (Target.a128Opt32).spec) rfl V L U hp
    | true => exact keIn_dec A128.Opt32.permOKArm (P := (Target.a128Opt32Armv67m).spec) rfl V L U hp
  obtain ⟨r, s1, h⟩ := dec_exists V L s
  rcases dec_run V L h with ⟨hacc, rfl, hm⟩ | ⟨hacc, rfl, hm⟩
  · obtain ⟨s2, h2, ho⟩ := K.1 hacc
    exact ⟨_, s1, s2, h, h2, fun b o h1 h2 => by rw [ho b o h1 h2, hm]⟩
  · obtain ⟨s2, h2, ho⟩ := K.2 hacc
    exact ⟨_, s1, s2, h, h2, fun b o h1 h2 => by rw [ho b o h1 h2, hm]⟩

theorem store32_inv {e : Env} {s s' : St} {p : Ptr} {x : BitVec 32} {r : Unit} (h : Runs (A128.Opt32.store32 p x) e s r s')
    (he : e.strict = true) : (e.base p.blk + p.off) % 4 = 0 := by
  obtain ⟨tr, h⟩ := h
  simp only [A128.Opt32.store32, store, run] at h
  split at h
  · split at h
    · rename_i ha
      simpa [alignedOk, he] using ha
    · simp at h
  · simp at h

/-- **C51**, the exception: on a platform that does not tolerate misaligned accesses, every encryption of a message that is not empty is
undefined if the compiler has placed `ke` at an address that is not a multiple of 4. -/
theorem C51_ke_misaligned (arm : Bool) (e : Env) (he : e.strict = true) (s : St) (a : EncArgs) (p : Ptr) (hm : 0 < a.mlen)
    (hp : (e.base p.blk + p.off) % 4 ≠ 0) : IsUB ((opt32In arm p).encrypt a) e s := by
  have hD : ∃ D, opt32In arm p = (A128.Opt32.implIn D p).aead := by cases arm <;> exact ⟨_, rfl⟩
  obtain ⟨D, hD⟩ := hD
  rw [hD]
  rcases runs_or_ub ((A128.Opt32.implIn D p).aead.encrypt a) e s with ⟨r, s', hr⟩ | hr
  · obtain ⟨_, _, _, hr⟩ := runs_bind_inv hr
    obtain ⟨_, _, henc, hr⟩ := runs_bind_inv hr
    unfold ifThen at henc
    obtain ⟨b, _, hb, hrun⟩ := runs_bind_inv henc
    obtain ⟨rfl, rfl⟩ := hb.det (runs_branch _ _ _)
    rw [if_pos (by simpa using hm)] at hrun
    obtain ⟨_, _, h, _⟩ := runs_bind_inv hrun
    unfold A128.Opt32.isapRkTo at h
    iterate 6 obtain ⟨_, _, _, h⟩ := runs_bind_inv h
    obtain ⟨_, _, h, _⟩ := runs_bind_inv h
    exact absurd (store32_inv h he) hp
  · exact hr

/-! ### The hypotheses can be met, with the arrays aligned and misaligned, disjoint and in the same place -/

/-- Encrypt a message of 8 bytes on the strict platform of `frameEnv`. -/
def frameEnc : EncArgs := { Sample.enc with mlen := 8 }

theorem frameEnc_valid : ValidEnc frameEnv frameEnc where
  k := fun _ _ => rfl
  npub := fun _ _ => rfl
  ad := fun _ _ => rfl
  m := fun _ _ => rfl
  c := fun _ _ => ⟨rfl, rfl⟩
  clen := fun _ _ => ⟨rfl, rfl⟩
  adlen_lt := by decide
  mlen_lt := by decide
  c_m := by decide
  c_ad := by decide
  c_npub := by decide
  c_k := by decide
  clen_c := by decide
  clen_m := by decide
  clen_ad := by decide
  clen_npub := by decide
  clen_k := by decide

theorem frameEnc_limits (d : DataModel) : (Target.a128Opt64 d).limits.Enc frameEnv frameEnc := by
  have h20 := (Sample.limits (.a128Opt64 d)).1
  have al : ∀ b n, b ≠ 9 → Aligned frameEnv 8 ⟨b, 0⟩ n := fun b n hb => .inr (.inr ⟨by decide, by simp [frameEnv, hb]⟩)
  exact
    { k := al _ _ (by decide), npub := al _ _ (by decide), ad := al _ _ (by decide), c := al _ _ (by decide), m := al _ _ (by decide)
      tag := .inr (.inr ⟨Nat.succ_ne_zero _, show (frameEnv.base 0 + (0 + 8)) % 8 = 0 from rfl⟩)
      adlen_lt := h20, mlen_lt := Nat.lt_trans (by decide) h20, over := fun _ _ => rfl }

theorem frameEnc_state (n b o : Nat) (hb : 9 ≤ b) : StateArray frameEnv frameEnc n ⟨b, o⟩ where
  wr := fun _ _ => ⟨rfl, rfl⟩
  k := .inr (.inr (.inl (by simp [frameEnc, Sample.enc]; omega)))
  npub := .inr (.inr (.inl (by simp [frameEnc, Sample.enc]; omega)))
  ad := .inr (.inr (.inl (by simp [frameEnc, Sample.enc]; omega)))
  m := .inr (.inr (.inl (by simp [frameEnc, Sample.enc]; omega)))
  c := .inr (.inr (.inl (by simp [frameEnc, Sample.enc]; omega)))
  clen := .inr (.inr (.inl (by simp [frameEnc, Sample.enc]; omega)))

example (d : DataModel) : ∃ s1 s2, Runs ((Target.a128Opt64 d).aead.encrypt frameEnc) frameEnv Sample.st 0 s1 ∧
    Runs ((opt64In d ⟨10, 0⟩ ⟨10, 0⟩).encrypt frameEnc) frameEnv Sample.st 0 s2 ∧ SameExcept 40 ⟨10, 0⟩ ⟨10, 0⟩ s2 s1 :=
  C51_state_encrypt_partial d frameEnv Sample.st frameEnc _ _ frameEnc_valid (frameEnc_limits d) (frameEnc_state _ _ _ (by decide))
    (frameEnc_state _ _ _ (by decide)) (by decide) (by decide)

example (d : DataModel) : ∃ s', Runs ((opt64In d ⟨10, 0⟩ ⟨10, 40⟩).encrypt frameEnc) frameEnv Sample.st 0 s' ∧
    bytesAt s' ⟨10, 0⟩ 24 = isapA128.rk (bytesAt Sample.st ⟨5, 0⟩ 16) (isapA128.iv 3) (bytesAt Sample.st ⟨4, 0⟩ 16) 24 := by
  obtain ⟨_, s', _, h, _⟩ := C51_state_encrypt_partial d frameEnv Sample.st frameEnc ⟨10, 0⟩ ⟨10, 40⟩ frameEnc_valid (frameEnc_limits d)
    (frameEnc_state _ _ _ (by decide)) (frameEnc_state _ _ _ (by decide)) (by decide) (by decide)
  exact ⟨s', h, C51_key_remains d frameEnv Sample.st s' frameEnc ⟨10, 0⟩ ⟨10, 40⟩ frameEnc_valid (frameEnc_limits d)
    (frameEnc_state _ _ _ (by decide)) (frameEnc_state _ _ _ (by decide)) (by decide) (by decide) (by decide) (by decide) 0 h⟩

example (d : DataModel) : IsUB ((opt64In d ⟨9, 0⟩ ⟨10, 0⟩).encrypt frameEnc) frameEnv Sample.st ∧
    IsUB ((opt64In d ⟨10, 0⟩ ⟨9, 0⟩).encrypt frameEnc) frameEnv Sample.st :=
  ⟨C51_state_misaligned d frameEnv rfl _ _ _ _ (.inr ⟨by decide, by decide⟩), C51_state_misaligned d frameEnv rfl _ _ _ _ (.inl (by decide))⟩

example (d : DataModel) : ∃ r s1 s2, Runs ((Target.a128Opt64 d).aead.decrypt Sample.dec) frameEnv Sample.st r s1 ∧
    Runs ((opt64In d ⟨10, 0⟩ ⟨10, 40⟩).decrypt Sample.dec) frameEnv Sample.st r s2 ∧ SameExcept 40 ⟨10, 0⟩ ⟨10, 40⟩ s2 s1 :=
  C51_state_decrypt_partial d frameEnv Sample.st Sample.dec _ _ frame_valid (frame_limits (.a128Opt64 d) (Nat.succ_ne_zero _))
    (frame_state _ _ _ (by decide)) (frame_state _ _ _ (by decide)) (by decide) (by decide)

/-- **C51 is false** of isapa128v20/opt_32 and opt_32_armv67m. -/
theorem C51_ke_false (arm : Bool) : ¬ AnyKe arm := by
  intro h
  have L : (opt32 arm).limits.Enc frameEnv frameEnc := by
    have hl : (opt32 arm).limits = .byWordsTag := by cases arm <;> rfl
    rw [hl]
    have al : ∀ b n, b ≠ 9 → Aligned frameEnv 8 ⟨b, 0⟩ n := fun b n hb => .inr (.inr ⟨by decide, by simp [frameEnv, hb]⟩)
    exact
      { k := al _ _ (by decide), npub := al _ _ (by decide), ad := al _ _ (by decide), c := al _ _ (by decide), m := al _ _ (by decide)
        tag := .inr (.inr ⟨by decide, by decide⟩)
        adlen_lt := by decide, mlen_lt := by decide, over := fun _ _ => rfl }
  obtain ⟨r, s', tr, hr⟩ := h.1 frameEnv Sample.st frameEnc ⟨9, 0⟩ frameEnc_valid L (frameEnc_state _ _ _ (by decide))
  obtain ⟨u, hub⟩ := C51_ke_misaligned arm frameEnv rfl Sample.st frameEnc ⟨9, 0⟩ (by decide) (by decide)
  rw [hr] at hub
  exact nomatch hub

example : ∃ s1 s2, Runs ((opt32 true).aead.encrypt frameEnc) frameEnv Sample.st 0 s1 ∧
    Runs ((opt32In true ⟨10, 4⟩).encrypt frameEnc) frameEnv Sample.st 0 s2 ∧ SameExcept 24 ⟨10, 4⟩ ⟨10, 4⟩ s2 s1 :=
  C51_ke_encrypt_partial true frameEnv Sample.st frameEnc _ frameEnc_valid (frameEnc_limits .lp64) (frameEnc_state _ _ _ (by decide)) (by decide)

example : ∃ r s1 s2, Runs ((opt32 false).aead.decrypt Sample.dec) frameEnv Sample.st r s1 ∧
    Runs ((opt32In false ⟨10, 4⟩).decrypt Sample.dec) frameEnv Sample.st r s2 ∧ SameExcept 24 ⟨10, 4⟩ ⟨10, 4⟩ s2 s1 :=
  C51_ke_decrypt_partial false frameEnv Sample.st Sample.dec _ frame_valid (frame_limits .a128Opt32 (Nat.succ_ne_zero _))
    (frame_state _ _ _ (by decide)) (by decide)

end Props
