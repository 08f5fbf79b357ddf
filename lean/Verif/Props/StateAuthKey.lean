import Verif.Proof.StateAuthKey
import Verif.Proof.AvxAuthKey
import Verif.Props.AvxArrays
import Verif.Props.Aead
/-!
# The session key of ISAP_MAC that isapa128v20/opt_64 and isapa128av20/avx_512 leave in the array `state` (C51)
-/

namespace Props
open C Model Spec

/-- `crypto_aead_decrypt` with the array `state` of `isap_enc` at `u` and that of `isap_mac` at `v`: isapa128v20/opt_64, or
isapa128av20/avx_512 if `x`. -/
def stateDec : (x : Bool) → DataModel → (u v : Ptr) → DecArgs → CM Int
  | false, d, u, v => (opt64In d u v).decrypt
  | true, d, u, v => avxDecryptIn d u v

/-- The implementation of the other theorems. -/
def stateTarget : (x : Bool) → DataModel → Target
  | false, d => .a128Opt64 d
  | true, d => .a128aAvx512 d

/-- The parameters of its specification. -/
def statePar : (x : Bool) → Params
  | false => isapA128
  | true => isapA128a

/-- The session key of ISAP_MAC, followed by the part of the state that the key does not replace. -/
def authState (P : Params) (K N A C : List Byte) : List Byte := P.authKey K N A C ++ (P.macState N A C).drop 16

/-- The first 16 bytes are the session key. -/
theorem authState_key (x : Bool) {K N : List Byte} (A C : List Byte) (hK : K.length = 16) (hN : N.length = 16) :
    (authState (statePar x) K N A C).take 16 = (statePar x).authKey K N A C := by
  have hl : ((statePar x).authKey K N A C).length = 16 := by
    have key : ∀ {D : A128.Opt64.Cfg} {q : Nat → Spec.Ascon.State → Spec.Ascon.State} {P : Params}, A128.Opt64.CfgOK D q P →
        (P.authKey K N A C).length = 16 := by
      intro D q P O
      have h := A128.Opt64.length_authState O A C hK hN
      rw [List.length_append, A128.Opt64.macState_words O _ _ hN, List.length_drop, Spec.Ascon.length_toBytes] at h
      omega
    cases x
    · exact key (A128.Opt64.cfgOK .lp64)
    · exact key (A128.Avx.cfgOK .lp64)
  rw [authState, List.take_append_of_le_length (by omega), List.take_of_length_le (by omega)]

theorem stateDec_leaves (x : Bool) (d : DataModel) {e : Env} {s s' : St} {a : DecArgs} {u v : Ptr} (V : ValidDec e a)
    (L : (stateTarget x d).limits.Dec e a) (U : StateArrayDec e a 40 u) (U' : StateArrayDec e a 40 v) (hu : Aligned e 8 u 40)
    (hv : Aligned e 8 v 40) {r : Int} (h : Runs (stateDec x d u v a) e s r s') (huv : r = -1 ∨ a.clen = 16 ∨ Disjoint u 40 v 40) :
    bytesAt s' v 40 = authState (statePar x) (bytesAt s a.k 16) (bytesAt s a.npub 16) (bytesAt s a.ad a.adlen)
      (bytesAt s a.c (a.clen - 16)) := by
  cases x
  · have O := A128.Opt64.cfgOK d
    exact decrypt_leaves O.isAscon.wf (fun _ _ => A128.Opt64.length_key O) (by decide)
      (fun _ _ A C hK hN => A128.Opt64.length_authState O A C hK hN)
      (A128.Opt64.encIn (v := v) O u) (A128.Opt64.macLeaves (u := u) O v) V L U U' hu hv h huv
  · have O := A128.Avx.cfgOK d
    have L : (Target.a128aAvx512 d).limits.Dec e a := L
    have L' : (⟨8, 8, d.ulong, id⟩ : Limits).Dec e a :=
      { k := L.k, npub := L.npub, ad := L.ad, c := L.c, m := L.m, over := L.over
        adlen_lt := Nat.lt_of_lt_of_le L.adlen_lt (Nat.min_le_right ..), clen_lt := Nat.lt_of_lt_of_le L.clen_lt (Nat.min_le_right ..) }
    exact decrypt_leaves O.isAscon.wf (fun _ _ => A128.Opt64.length_key O) (by decide)
      (fun _ _ A C hK hN => A128.Opt64.length_authState O A C hK hN)
      (A128.Opt64.encIn (v := v) O u) (A128.Opt64.macLeaves (u := u) O v) V L' U U' hu hv h huv

/-- After encryption by isapa128v20/opt_64, the array of `isap_mac` holds the session key of ISAP_MAC and the rest of the state before the
last permutation, wherever the compiler has put the other array. -/
theorem C51_state_authkey_remains (d : DataModel) (e : Env) (s s' : St) (a : EncArgs) (u v : Ptr) (V : ValidEnc e a)
    (L : (Target.a128Opt64 d).limits.Enc e a) (U : StateArray e a 40 u) (U' : StateArray e a 40 v) (hu : Aligned e 8 u 40)
    (hv : Aligned e 8 v 40) (r : Int) (h : Runs ((opt64In d u v).encrypt a) e s r s') :
    bytesAt s' v 40 = authState isapA128 (bytesAt s a.k 16) (bytesAt s a.npub 16) (bytesAt s a.ad a.adlen)
      (isapA128.enc (bytesAt s a.k 16) (bytesAt s a.npub 16) (bytesAt s a.m a.mlen)) :=
  have O := A128.Opt64.cfgOK d
  encrypt_leaves O.isAscon.wf (fun _ _ => A128.Opt64.length_key O) (by decide)
    (fun _ _ A C hK hN => A128.Opt64.length_authState O A C hK hN)
    (A128.Opt64.encIn (v := v) O u) (A128.Opt64.macLeaves (u := u) O v) rfl ⟨2, rfl⟩ V L U U' hu hv h

/-- After encryption by isapa128av20/avx_512, the same of `state_mac`. -/
theorem C51_avx_authkey_remains (d : DataModel) (e : Env) (s s' : St) (a : EncArgs) (u v : Ptr) (V : ValidEnc e a)
    (L : (Target.a128aAvx512 d).limits.Enc e a) (U : StateArray e a 40 u) (U' : StateArray e a 40 v) (hu : Aligned e 8 u 40)
    (hv : Aligned e 8 v 40) (r : Int) (h : Runs (avxEncryptIn d u v a) e s r s') :
    bytesAt s' v 40 = authState isapA128a (bytesAt s a.k 16) (bytesAt s a.npub 16) (bytesAt s a.ad a.adlen)
      (isapA128a.enc (bytesAt s a.k 16) (bytesAt s a.npub 16) (bytesAt s a.m a.mlen)) :=
  A128.Avx.encryptIn_leaves d V L U U' hu hv h

/-- After a decryption that has rejected the tag, it holds the session key for the nonce, the associated data and the ciphertext that
were rejected, and the rest of the state; wherever the other array is. -/
theorem C51_state_authkey_remains_rejected (x : Bool) (d : DataModel) (e : Env) (s s' : St) (a : DecArgs) (u v : Ptr) (V : ValidDec e a)
    (L : (stateTarget x d).limits.Dec e a) (U : StateArrayDec e a 40 u) (U' : StateArrayDec e a 40 v) (hu : Aligned e 8 u 40)
    (hv : Aligned e 8 v 40) (h : Runs (stateDec x d u v a) e s (-1) s') :
    bytesAt s' v 40 = authState (statePar x) (bytesAt s a.k 16) (bytesAt s a.npub 16) (bytesAt s a.ad a.adlen)
      (bytesAt s a.c (a.clen - 16)) :=
  stateDec_leaves x d V L U U' hu hv h (.inl rfl)

/-- The same after any decryption, if the array of `isap_enc` is elsewhere. -/
theorem C51_state_authkey_remains_dec (x : Bool) (d : DataModel) (e : Env) (s s' : St) (a : DecArgs) (u v : Ptr) (V : ValidDec e a)
    (L : (stateTarget x d).limits.Dec e a) (U : StateArrayDec e a 40 u) (U' : StateArrayDec e a 40 v) (hu : Aligned e 8 u 40)
    (hv : Aligned e 8 v 40) (huv : Disjoint u 40 v 40) (r : Int) (h : Runs (stateDec x d u v a) e s r s') :
    bytesAt s' v 40 = authState (statePar x) (bytesAt s a.k 16) (bytesAt s a.npub 16) (bytesAt s a.ad a.adlen)
      (bytesAt s a.c (a.clen - 16)) :=
  stateDec_leaves x d V L U U' hu hv h (.inr (.inr huv))

/-- So whoever has made a decryption fail and can read that array afterwards gets the tag that will be accepted with one call of the
permutation: it is a function of these 40 bytes alone. -/
theorem C51_state_tag_from_rejected (x : Bool) (d : DataModel) (e : Env) (s s' : St) (a : DecArgs) (u v : Ptr) (V : ValidDec e a)
    (L : (stateTarget x d).limits.Dec e a) (U : StateArrayDec e a 40 u) (U' : StateArrayDec e a 40 v) (hu : Aligned e 8 u 40)
    (hv : Aligned e 8 v 40) (h : Runs (stateDec x d u v a) e s (-1) s') :
    ((statePar x).pH (bytesAt s' v 40)).take 16 =
      (statePar x).mac (bytesAt s a.k 16) (bytesAt s a.npub 16) (bytesAt s a.ad a.adlen) (bytesAt s a.c (a.clen - 16)) := by
  rw [C51_state_authkey_remains_rejected x d e s s' a u v V L U U' hu hv h]
  rfl

theorem stateDec_both (x : Bool) (d : DataModel) {e : Env} (s : St) {a : DecArgs} {u v : Ptr} (V : ValidDec e a)
    (L : (stateTarget x d).limits.Dec e a) (U : StateArrayDec e a 40 u) (U' : StateArrayDec e a 40 v) (hu : Aligned e 8 u 40)
    (hv : Aligned e 8 v 40) :
    ∃ r s1 s2, Runs ((stateTarget x d).aead.decrypt a) e s r s1 ∧ Runs (stateDec x d u v a) e s r s2 := by
  cases x
  · obtain ⟨r, s1, s2, h1, h2, _⟩ := C51_state_decrypt_partial d e s a u v V L U U' hu hv
    exact ⟨r, s1, s2, h1, h2⟩
  · obtain ⟨r, s1, s2, h1, h2, _⟩ := C51_state_avx_partial d e s a u v V L U U' hu hv
    exact ⟨r, s1, s2, h1, h2⟩

/-- In terms of the API: if the ciphertext that was rejected is sent again with that tag, it is accepted. -/
theorem C51_state_forgery_from_rejected (x : Bool) (d : DataModel) (e : Env) (s s' s2 : St) (a : DecArgs) (u v : Ptr) (V : ValidDec e a)
    (L : (stateTarget x d).limits.Dec e a) (U : StateArrayDec e a 40 u) (U' : StateArrayDec e a 40 v) (hu : Aligned e 8 u 40)
    (hv : Aligned e 8 v 40) (h : Runs (stateDec x d u v a) e s (-1) s')
    (hk : bytesAt s2 a.k 16 = bytesAt s a.k 16) (hn : bytesAt s2 a.npub 16 = bytesAt s a.npub 16)
    (ha : bytesAt s2 a.ad a.adlen = bytesAt s a.ad a.adlen) (hc : bytesAt s2 a.c (a.clen - 16) = bytesAt s a.c (a.clen - 16))
    (ht : bytesAt s2 (a.c + (a.clen - 16)) 16 = ((statePar x).pH (bytesAt s' v 40)).take 16) :
    ∃ s3, Runs (stateDec x d u v a) e s2 0 s3 := by
  rw [C51_state_tag_from_rejected x d e s s' a u v V L U U' hu hv h, ← hk, ← hn, ← ha, ← hc] at ht
  have hx : (stateTarget x d).stp = false ∧ (stateTarget x d).conforming = true ∧ (stateTarget x d).set.spec = statePar x := by
    cases x <;> exact ⟨rfl, rfl, rfl⟩
  obtain ⟨r, s3, hr, _, h0⟩ := C03_accepts_iff_tag_partial (stateTarget x d) hx.1 hx.2.1 e s2 a V L
  rw [hx.2.2] at h0
  obtain rfl := h0.2 ht
  obtain ⟨r, s4, s5, hr1, hr2⟩ := stateDec_both x d s2 V L U U' hu hv
  obtain ⟨rfl, _⟩ := hr1.det hr
  exact ⟨s5, hr2⟩

/-! ### The hypotheses can be met -/

theorem frame_stateTarget (x : Bool) (d : DataModel) : (stateTarget x d).limits.Dec frameEnv Sample.dec := by
  cases x <;> exact frame_limits _ (Nat.succ_ne_zero _)

/-- The sample call is rejected with some tag, and leaves the session key. -/
example (x : Bool) (d : DataModel) : ∃ s s', Runs (stateDec x d ⟨10, 0⟩ ⟨10, 0⟩ Sample.dec) frameEnv s (-1) s' ∧
    (bytesAt s' ⟨10, 0⟩ 40).take 16 = (statePar x).authKey (bytesAt s ⟨5, 0⟩ 16) (bytesAt s ⟨4, 0⟩ 16) (bytesAt s ⟨3, 0⟩ 20)
      (bytesAt s ⟨0, 0⟩ 3) := by
  let T := (statePar x).mac (bytesAt Sample.st ⟨5, 0⟩ 16) (bytesAt Sample.st ⟨4, 0⟩ 16) (bytesAt Sample.st ⟨3, 0⟩ 20)
    (bytesAt Sample.st ⟨0, 0⟩ 3)
  let s : St := { Sample.st with mem := fun b o => if b = 0 ∧ o = 3 then T.getD 0 0 ^^^ 1 else Sample.st.mem b o }
  refine ⟨s, ?_⟩
  have hx : (stateTarget x d).stp = false ∧ (stateTarget x d).conforming = true ∧ (stateTarget x d).set.spec = statePar x := by
    cases x <;> exact ⟨rfl, rfl, rfl⟩
  have L := frame_stateTarget x d
  obtain ⟨r, s1, hr, h01, h0⟩ := C03_accepts_iff_tag_partial (stateTarget x d) hx.1 hx.2.1 frameEnv s Sample.dec frame_valid L
  rw [hx.2.2] at h0
  rcases h01 with rfl | rfl
  · have h : bytesAt s ⟨0, 3⟩ 16 = (statePar x).mac (bytesAt s ⟨5, 0⟩ 16) (bytesAt s ⟨4, 0⟩ 16) (bytesAt s ⟨3, 0⟩ 20)
      (bytesAt s ⟨0, 0⟩ 3) := h0.1 rfl
    have e1 : ∀ b n, b ≠ 0 → bytesAt s ⟨b, 0⟩ n = bytesAt Sample.st ⟨b, 0⟩ n := by
      intro b n hb
      simp [bytesAt, s, hb]
    have e2 : bytesAt s ⟨0, 0⟩ 3 = bytesAt Sample.st ⟨0, 0⟩ 3 := by
      apply List.map_congr_left
      intro i hi
      have := List.mem_range.1 hi
      show (if _ then _ else _) = _
      rw [if_neg]
      show ¬ (0 = 0 ∧ 0 + i = 3)
      omega
    rw [e1 _ _ (by decide), e1 _ _ (by decide), e1 _ _ (by decide), e2] at h
    have h := congrArg (·.getD 0 0) h
    have h : T.getD 0 0 ^^^ 1 = T.getD 0 0 := h
    generalize T.getD 0 0 = y at h
    exact absurd h (by revert y; decide)
  · obtain ⟨r, s2, s3, h1, h2⟩ := stateDec_both x d s frame_valid L (frame_state 40 10 0 (by decide)) (frame_state 40 10 0 (by decide))
      (by decide) (by decide)
    obtain ⟨rfl, _⟩ := h1.det hr
    refine ⟨s3, h2, ?_⟩
    rw [C51_state_authkey_remains_rejected x d frameEnv s s3 Sample.dec _ _ frame_valid L (frame_state 40 10 0 (by decide))
      (frame_state 40 10 0 (by decide)) (by decide) (by decide) h2, authState_key x _ _ (by simp) (by simp)]
    rfl

example (d : DataModel) : ∃ s', Runs ((opt64In d ⟨10, 0⟩ ⟨10, 0⟩).encrypt frameEnc) frameEnv Sample.st 0 s' ∧
    bytesAt s' ⟨10, 0⟩ 40 = authState isapA128 (bytesAt Sample.st ⟨5, 0⟩ 16) (bytesAt Sample.st ⟨4, 0⟩ 16)
      (bytesAt Sample.st frameEnc.ad frameEnc.adlen) (isapA128.enc (bytesAt Sample.st ⟨5, 0⟩ 16) (bytesAt Sample.st ⟨4, 0⟩ 16)
        (bytesAt Sample.st frameEnc.m frameEnc.mlen)) := by
  obtain ⟨_, s', _, h, _⟩ := C51_state_encrypt_partial d frameEnv Sample.st frameEnc ⟨10, 0⟩ ⟨10, 0⟩ frameEnc_valid (frameEnc_limits d)
    (frameEnc_state _ _ _ (by decide)) (frameEnc_state _ _ _ (by decide)) (by decide) (by decide)
  exact ⟨s', h, C51_state_authkey_remains d frameEnv Sample.st s' frameEnc ⟨10, 0⟩ ⟨10, 0⟩ frameEnc_valid (frameEnc_limits d)
    (frameEnc_state _ _ _ (by decide)) (frameEnc_state _ _ _ (by decide)) (by decide) (by decide) 0 h⟩

example (d : DataModel) : ∃ s', Runs (avxEncryptIn d ⟨10, 0⟩ ⟨10, 40⟩ frameEnc) frameEnv Sample.st 0 s' ∧
    bytesAt s' ⟨10, 40⟩ 40 = authState isapA128a (bytesAt Sample.st ⟨5, 0⟩ 16) (bytesAt Sample.st ⟨4, 0⟩ 16)
      (bytesAt Sample.st frameEnc.ad frameEnc.adlen) (isapA128a.enc (bytesAt Sample.st ⟨5, 0⟩ 16) (bytesAt Sample.st ⟨4, 0⟩ 16)
        (bytesAt Sample.st frameEnc.m frameEnc.mlen)) := by
  obtain ⟨_, s', _, h, _⟩ := C51_avx_encrypt_partial d frameEnv Sample.st frameEnc ⟨10, 0⟩ ⟨10, 40⟩ frameEnc_valid (frameEnc_avx d)
    (frameEnc_state _ _ _ (by decide)) (frameEnc_state _ _ _ (by decide)) (by decide) (by decide)
  exact ⟨s', h, C51_avx_authkey_remains d frameEnv Sample.st s' frameEnc ⟨10, 0⟩ ⟨10, 40⟩ frameEnc_valid (frameEnc_avx d)
    (frameEnc_state _ _ _ (by decide)) (frameEnc_state _ _ _ (by decide)) (by decide) (by decide) 0 h⟩

end Props
