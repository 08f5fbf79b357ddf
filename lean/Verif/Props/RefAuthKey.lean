import Verif.Proof.RefAuthKey
import Verif.Props.RefArrays
import Verif.Props.Aead
import Verif.Spec.AuthKey
/-!
# The session key of ISAP_MAC that the Keccak reference leaves in its arrays (C51)
-/

namespace Props
open C Model Spec
open KeccakRef.In (Frame)

theorem kRef_auth (x : Bool) {e : Env} {s : St} {F : Frame} (hal : ∀ u ∈ F.arrays, Aligned e 2 u 50) :
    (∀ {a : EncArgs}, ValidEnc e a → KArrays e a F → ∀ {r s1}, Runs ((kRef x).aead.encrypt a) e s r s1 →
      ∃ s2, Runs ((kRefIn x F).encrypt a) e s r s2 ∧ bytesAt s2 F.macRk 16 = (kPar x).authKey (bytesAt s a.k 16) (bytesAt s a.npub 16)
        (bytesAt s a.ad a.adlen) ((kPar x).enc (bytesAt s a.k 16) (bytesAt s a.npub 16) (bytesAt s a.m a.mlen))) ∧
    (∀ {a : DecArgs}, ValidDec e a → KArraysDec e a F → ∀ {s1}, Runs ((kRef x).aead.decrypt a) e s (-1) s1 →
      ∃ s2, Runs ((kRefIn x F).decrypt a) e s (-1) s2 ∧ bytesAt s2 F.macRk 16 = (kPar x).authKey (bytesAt s a.k 16) (bytesAt s a.npub 16)
        (bytesAt s a.ad a.adlen) (bytesAt s a.c (a.clen - 16))) := by
  have key : ∀ {G : Ref.Cfg} {P : Params}, KeccakRef.In.IsK G → Ref.CfgOK G P →
      (∀ {a : EncArgs}, ValidEnc e a → KArrays e a F → ∀ {r s1}, Runs ((Ref.impl G).aead.encrypt a) e s r s1 →
        ∃ s2, Runs ((KeccakRef.In.impl G F).aead.encrypt a) e s r s2 ∧ bytesAt s2 F.macRk 16 = P.authKey (bytesAt s a.k 16)
          (bytesAt s a.npub 16) (bytesAt s a.ad a.adlen) (P.enc (bytesAt s a.k 16) (bytesAt s a.npub 16) (bytesAt s a.m a.mlen))) ∧
      (∀ {a : DecArgs}, ValidDec e a → KArraysDec e a F → ∀ {s1}, Runs ((Ref.impl G).aead.decrypt a) e s (-1) s1 →
        ∃ s2, Runs ((KeccakRef.In.impl G F).aead.decrypt a) e s (-1) s2 ∧ bytesAt s2 F.macRk 16 = P.authKey (bytesAt s a.k 16)
          (bytesAt s a.npub 16) (bytesAt s a.ad a.adlen) (bytesAt s a.c (a.clen - 16))) := by
    intro G P K C
    refine ⟨fun V U _ _ h => ?_, fun V U _ h => ?_⟩
    · exact KeccakRef.In.auth_encrypt K C ⟨fun u hu => (U.each u hu).wr, hal, U.enc, U.mac⟩ V
        (fun u hu => (U.each u hu).k) (fun u hu => (U.each u hu).npub) (fun u hu => (U.each u hu).ad) (fun u hu => (U.each u hu).m)
        (fun u hu => (U.each u hu).c) (fun u hu => (U.each u hu).clen) h
    · exact KeccakRef.In.auth_reject K C ⟨fun u hu => (U.each u hu).wr, hal, U.enc, U.mac⟩ V.toValidDecIn
        (fun u hu => (U.each u hu).k) (fun u hu => (U.each u hu).npub) (fun u hu => (U.each u hu).ad) (fun u hu => (U.each u hu).c)
        (fun u hu => (U.each u hu).mlen) h
  cases x
  · exact key isK128 KeccakRef.cfgK128_ok
  · exact key isK128a KeccakRef.cfgK128a_ok

/-- After encryption, the array of `isap_rk` that `isap_mac` has called holds the session key of ISAP_MAC, wherever the compiler has put
the other arrays. -/
theorem C51_kref_authkey_remains (x : Bool) (e : Env) (s s' : St) (a : EncArgs) (F : Frame) (V : ValidEnc e a)
    (L : (kRef x).limits.Enc e a) (U : KArrays e a F) (hal : ∀ u ∈ F.arrays, Aligned e 2 u 50) (r : Int)
    (h : Runs ((kRefIn x F).encrypt a) e s r s') :
    bytesAt s' F.macRk 16 = (kPar x).authKey (bytesAt s a.k 16) (bytesAt s a.npub 16) (bytesAt s a.ad a.adlen)
      ((kPar x).enc (bytesAt s a.k 16) (bytesAt s a.npub 16) (bytesAt s a.m a.mlen)) := by
  obtain ⟨s1, hr, _⟩ := (kRef x).encryptOK e s a V L
  obtain ⟨s2, hr2, hk⟩ := (kRef_auth x hal).1 V U hr
  obtain ⟨_, rfl⟩ := h.det hr2
  exact hk

/-- After a decryption that has rejected the tag, that array holds the session key for the nonce, the associated data and the ciphertext
that were rejected. -/
theorem C51_kref_authkey_remains_rejected (x : Bool) (e : Env) (s s' : St) (a : DecArgs) (F : Frame) (V : ValidDec e a)
    (L : (kRef x).limits.Dec e a) (U : KArraysDec e a F) (hal : ∀ u ∈ F.arrays, Aligned e 2 u 50)
    (h : Runs ((kRefIn x F).decrypt a) e s (-1) s') :
    bytesAt s' F.macRk 16 = (kPar x).authKey (bytesAt s a.k 16) (bytesAt s a.npub 16) (bytesAt s a.ad a.adlen)
      (bytesAt s a.c (a.clen - 16)) := by
  obtain ⟨r, s1, hr⟩ := dec_exists V L s
  obtain ⟨s2, hr2, _⟩ := (kRefIn_both x hal).2 V U hr
  obtain ⟨rfl, rfl⟩ := h.det hr2
  obtain ⟨s2, hr2, hk⟩ := (kRef_auth x hal).2 V U hr
  obtain ⟨_, rfl⟩ := h.det hr2
  exact hk

/-- So whoever has made a decryption fail and can read that memory afterwards can compute, without the key, the tag that will be accepted
for the same nonce, associated data and ciphertext: it is a function of these 16 bytes and of what was sent. -/
theorem C51_kref_tag_from_rejected (x : Bool) (e : Env) (s s' : St) (a : DecArgs) (F : Frame) (V : ValidDec e a)
    (L : (kRef x).limits.Dec e a) (U : KArraysDec e a F) (hal : ∀ u ∈ F.arrays, Aligned e 2 u 50)
    (h : Runs ((kRefIn x F).decrypt a) e s (-1) s') :
    (kPar x).tagFrom (bytesAt s' F.macRk 16) (bytesAt s a.npub 16) (bytesAt s a.ad a.adlen) (bytesAt s a.c (a.clen - 16)) =
      (kPar x).mac (bytesAt s a.k 16) (bytesAt s a.npub 16) (bytesAt s a.ad a.adlen) (bytesAt s a.c (a.clen - 16)) := by
  rw [C51_kref_authkey_remains_rejected x e s s' a F V L U hal h, Params.mac_eq_tagFrom]

/-- In terms of the API: if the ciphertext that was rejected is sent again with that tag, it is accepted. -/
theorem C51_kref_forgery_from_rejected (x : Bool) (e : Env) (s s' s2 : St) (a : DecArgs) (F : Frame) (V : ValidDec e a)
    (L : (kRef x).limits.Dec e a) (U : KArraysDec e a F) (hal : ∀ u ∈ F.arrays, Aligned e 2 u 50)
    (h : Runs ((kRefIn x F).decrypt a) e s (-1) s')
    (hk : bytesAt s2 a.k 16 = bytesAt s a.k 16) (hn : bytesAt s2 a.npub 16 = bytesAt s a.npub 16)
    (ha : bytesAt s2 a.ad a.adlen = bytesAt s a.ad a.adlen) (hc : bytesAt s2 a.c (a.clen - 16) = bytesAt s a.c (a.clen - 16))
    (ht : bytesAt s2 (a.c + (a.clen - 16)) 16 =
      (kPar x).tagFrom (bytesAt s' F.macRk 16) (bytesAt s a.npub 16) (bytesAt s a.ad a.adlen) (bytesAt s a.c (a.clen - 16))) :
    ∃ s3, Runs ((kRefIn x F).decrypt a) e s2 0 s3 := by
  rw [C51_kref_tag_from_rejected x e s s' a F V L U hal h, ← hk, ← hn, ← ha, ← hc] at ht
  have hx : (kRef x).stp = false ∧ (kRef x).conforming = true ∧ (kRef x).set.spec = kPar x := by cases x <;> exact ⟨rfl, rfl, rfl⟩
  obtain ⟨r, s3, hr, _, h0⟩ := C03_accepts_iff_tag_partial (kRef x) hx.1 hx.2.1 e s2 a V L
  rw [hx.2.2] at h0
  obtain rfl := h0.2 ht
  obtain ⟨s4, hr2, _⟩ := (kRefIn_both x hal).2 V U hr
  exact ⟨s4, hr2⟩

/-! ### The hypotheses can be met -/

/-- The sample call is rejected with some tag. -/
example (x : Bool) : ∃ s s', Runs ((kRefIn x ⟨⟨10, 0⟩, ⟨10, 50⟩, ⟨10, 0⟩, ⟨10, 50⟩⟩).decrypt Sample.dec) frameEnv s (-1) s' := by
  let T := (kPar x).mac (bytesAt Sample.st ⟨5, 0⟩ 16) (bytesAt Sample.st ⟨4, 0⟩ 16) (bytesAt Sample.st ⟨3, 0⟩ 20)
    (bytesAt Sample.st ⟨0, 0⟩ 3)
  let s : St := { Sample.st with mem := fun b o => if b = 0 ∧ o = 3 then T.getD 0 0 ^^^ 1 else Sample.st.mem b o }
  refine ⟨s, ?_⟩
  have hx : (kRef x).stp = false ∧ (kRef x).conforming = true ∧ (kRef x).set.spec = kPar x := by cases x <;> exact ⟨rfl, rfl, rfl⟩
  have L := frame_limits (kRef x) (frame_kref x)
  obtain ⟨r, s1, hr, h01, h0⟩ := C03_accepts_iff_tag_partial (kRef x) hx.1 hx.2.1 frameEnv s Sample.dec frame_valid L
  rw [hx.2.2] at h0
  rcases h01 with rfl | rfl
  · have h : bytesAt s ⟨0, 3⟩ 16 = (kPar x).mac (bytesAt s ⟨5, 0⟩ 16) (bytesAt s ⟨4, 0⟩ 16) (bytesAt s ⟨3, 0⟩ 20)
      (bytesAt s ⟨0, 0⟩ 3) := h0.1 rfl
    have e1 : ∀ b n, b ≠ 0 → bytesAt s ⟨b, 0⟩ n = bytesAt Sample.st ⟨b, 0⟩ n := by
      intro b n hb
      simp [bytesAt, s, hb]
    have e2 : bytesAt s ⟨0, 0⟩ 3 = bytesAt Sample.st ⟨0, 0⟩ 3 := by
      apply List.map_congr_left
      intro i hi
      have := List.mem_range.1 hi
      show (if _ then _ else _) = _
      rw [if_neg]
      show ¬ (0 = 0 ∧ 0 + i = 3)
      omega
    rw [e1 _ _ (by decide), e1 _ _ (by decide), e1 _ _ (by decide), e2] at h
    have h := congrArg (·.getD 0 0) h
    have h : T.getD 0 0 ^^^ 1 = T.getD 0 0 := h
    generalize T.getD 0 0 = y at h
    exact absurd h (by revert y; decide)
  · obtain ⟨s2, h2, _⟩ := (kRefIn_both x (F := ⟨⟨10, 0⟩, ⟨10, 50⟩, ⟨10, 0⟩, ⟨10, 50⟩⟩) (by decide)).2 frame_valid
      (frame_karrays (by decide) (by decide) (by decide)) hr
    exact ⟨s2, h2⟩

example (x : Bool) : ∃ s', Runs ((kRefIn x ⟨⟨10, 0⟩, ⟨10, 50⟩, ⟨10, 0⟩, ⟨10, 50⟩⟩).encrypt frameEnc) frameEnv Sample.st 0 s' ∧
    bytesAt s' ⟨10, 50⟩ 16 = (kPar x).authKey (bytesAt Sample.st ⟨5, 0⟩ 16) (bytesAt Sample.st ⟨4, 0⟩ 16)
      (bytesAt Sample.st frameEnc.ad frameEnc.adlen) ((kPar x).enc (bytesAt Sample.st ⟨5, 0⟩ 16) (bytesAt Sample.st ⟨4, 0⟩ 16)
        (bytesAt Sample.st frameEnc.m frameEnc.mlen)) := by
  have U : KArrays frameEnv frameEnc ⟨⟨10, 0⟩, ⟨10, 50⟩, ⟨10, 0⟩, ⟨10, 50⟩⟩ :=
    ⟨fun u hu => frameEnc_state 50 u.blk u.off (by revert u; decide), by decide, by decide⟩
  obtain ⟨_, s', _, h, _⟩ := C51_kref_encrypt_partial x frameEnv Sample.st frameEnc _ frameEnc_valid (frameEnc_kref x) U (by decide)
  exact ⟨s', h, C51_kref_authkey_remains x frameEnv Sample.st s' frameEnc _ frameEnc_valid (frameEnc_kref x) U (by decide) 0 h⟩

end Props
