import Verif.Proof.RefArraysApi
import Verif.Props.AvxArrays
/-!
# The arrays `state` in the Keccak reference (C51)
-/

namespace Props
open C Model Spec
open KeccakRef.In (Frame)

/-- isapk128av20/ref (`a` = true) or isapk128v20/ref. -/
def kRef : (a : Bool) → Target
  | true => .ref .k128a
  | false => .ref .k128

/-- The same with the arrays `state` of its functions at `F`. -/
def kRefIn : (a : Bool) → Frame → Aead
  | true, F => (KeccakRef.In.impl KeccakRef.cfgK128a F).aead
  | false, F => (KeccakRef.In.impl KeccakRef.cfgK128 F).aead

/-- The arrays of a call of `crypto_aead_encrypt` can be at `F`: the caller does not use that memory, and the arrays that exist at the
same time are disjoint. -/
structure KArrays (e : Env) (a : EncArgs) (F : Frame) : Prop where
  each : ∀ u ∈ F.arrays, StateArray e a 50 u
  enc : Disjoint F.enc 50 F.encRk 50
  mac : Disjoint F.mac 50 F.macRk 50

/-- The same for `crypto_aead_decrypt`. -/
structure KArraysDec (e : Env) (a : DecArgs) (F : Frame) : Prop where
  each : ∀ u ∈ F.arrays, StateArrayDec e a 50 u
  enc : Disjoint F.enc 50 F.encRk 50
  mac : Disjoint F.mac 50 F.macRk 50

/-- **C51**, the property of the Keccak reference: valid calls end normally wherever the arrays `state` are. -/
def AnyKState (x : Bool) : Prop :=
  (∀ (e : Env) (s : St) (a : EncArgs) (F : Frame), ValidEnc e a → (kRef x).limits.Enc e a → KArrays e a F →
    ∃ r s', Runs ((kRefIn x F).encrypt a) e s r s') ∧
  (∀ (e : Env) (s : St) (a : DecArgs) (F : Frame), ValidDec e a → (kRef x).limits.Dec e a → KArraysDec e a F →
    ∃ r s', Runs ((kRefIn x F).decrypt a) e s r s')

/-- The parameter set. -/
def kPar : (a : Bool) → Params
  | true => isapK128a
  | false => isapK128

theorem isK128a : KeccakRef.In.IsK KeccakRef.cfgK128a := ⟨rfl, rfl⟩
theorem isK128 : KeccakRef.In.IsK KeccakRef.cfgK128 := ⟨rfl, rfl⟩

theorem kRefIn_enc {G : Ref.Cfg} {P : Params} (K : KeccakRef.In.IsK G) (C : Ref.CfgOK G P) {e : Env} {s s1 : St} {a : EncArgs} {F : Frame}
    (V : ValidEnc e a) (U : KArrays e a F) (hal : ∀ u ∈ F.arrays, Aligned e 2 u 50) {r : Int}
    (h : Runs ((Ref.impl G).aead.encrypt a) e s r s1) :
    ∃ s2, Runs ((KeccakRef.In.impl G F).aead.encrypt a) e s r s2 ∧ SameOutside 50 F.arrays s2 s1 ∧
      (0 < a.mlen → Disjoint F.encRk 50 F.mac 50 → Disjoint F.encRk 50 F.macRk 50 →
        bytesAt s2 F.encRk 34 = P.rk (bytesAt s a.k 16) (P.iv 3) (bytesAt s a.npub 16) 34) := by
  obtain ⟨b, t', h1, rfl, h2, h3⟩ := KeccakRef.In.sim_encrypt K C (F := F) ⟨fun u hu => (U.each u hu).wr, hal, U.enc, U.mac⟩ V
    (fun u hu => (U.each u hu).k) (fun u hu => (U.each u hu).npub) (fun u hu => (U.each u hu).ad) (fun u hu => (U.each u hu).m)
    (fun u hu => (U.each u hu).c) (fun u hu => (U.each u hu).clen) s s
    ⟨⟨rfl, rfl⟩, fun _ _ _ => rfl, (fun _ hx => nomatch hx), (fun _ hx => nomatch hx)⟩ r s1 h
  exact ⟨t', h1, h2.same, h3⟩

theorem kRefIn_dec {G : Ref.Cfg} {P : Params} (K : KeccakRef.In.IsK G) (C : Ref.CfgOK G P) {e : Env} {s s1 : St} {a : DecArgs} {F : Frame}
    (V : ValidDecIn e a) (U : KArraysDec e a F) (hal : ∀ u ∈ F.arrays, Aligned e 2 u 50) {r : Int}
    (h : Runs ((Ref.impl G).aead.decrypt a) e s r s1) :
    ∃ s2, Runs ((KeccakRef.In.impl G F).aead.decrypt a) e s r s2 ∧ SameOutside 50 F.arrays s2 s1 ∧
      (r = 0 → 16 < a.clen → bytesAt s2 F.encRk 34 = P.rk (bytesAt s a.k 16) (P.iv 3) (bytesAt s a.npub 16) 34) := by
  obtain ⟨b, t', h1, rfl, h2, h3⟩ := KeccakRef.In.sim_decrypt K C (F := F) ⟨fun u hu => (U.each u hu).wr, hal, U.enc, U.mac⟩ V
    (fun u hu => (U.each u hu).k) (fun u hu => (U.each u hu).npub) (fun u hu => (U.each u hu).ad) (fun u hu => (U.each u hu).c)
    (fun u hu => (U.each u hu).m) (fun u hu => (U.each u hu).mlen) s s
    ⟨⟨rfl, rfl⟩, fun _ _ _ => rfl, (fun _ hx => nomatch hx), (fun _ hx => nomatch hx)⟩ r s1 h
  exact ⟨t', h1, h2.same, h3⟩

theorem kRefIn_both (x : Bool) {e : Env} {s : St} {F : Frame} (hal : ∀ u ∈ F.arrays, Aligned e 2 u 50) :
    (∀ {a : EncArgs}, ValidEnc e a → KArrays e a F → ∀ {r s1}, Runs ((kRef x).aead.encrypt a) e s r s1 →
      ∃ s2, Runs ((kRefIn x F).encrypt a) e s r s2 ∧ SameOutside 50 F.arrays s2 s1 ∧
        (0 < a.mlen → Disjoint F.encRk 50 F.mac 50 → Disjoint F.encRk 50 F.macRk 50 →
          bytesAt s2 F.encRk 34 = (kPar x).rk (bytesAt s a.k 16) ((kPar x).iv 3) (bytesAt s a.npub 16) 34)) ∧
    (∀ {a : DecArgs}, ValidDec e a → KArraysDec e a F → ∀ {r s1}, Runs ((kRef x).aead.decrypt a) e s r s1 →
      ∃ s2, Runs ((kRefIn x F).decrypt a) e s r s2 ∧ SameOutside 50 F.arrays s2 s1 ∧
        (r = 0 → 16 < a.clen → bytesAt s2 F.encRk 34 = (kPar x).rk (bytesAt s a.k 16) ((kPar x).iv 3) (bytesAt s a.npub 16) 34)) := by
  cases x
  · exact ⟨fun V U _ _ h => kRefIn_enc isK128 KeccakRef.cfgK128_ok V U hal h, fun V U _ _ h => kRefIn_dec isK128 KeccakRef.cfgK128_ok V.toValidDecIn U hal h⟩
  · exact ⟨fun V U _ _ h => kRefIn_enc isK128a KeccakRef.cfgK128a_ok V U hal h, fun V U _ _ h => kRefIn_dec isK128a KeccakRef.cfgK128a_ok V.toValidDecIn U hal h⟩

/-- **C51** If the arrays are at even addresses, encryption has the result of `crypto_aead_encrypt` in the other theorems, and it leaves
the same memory, except for the arrays.  (The arrays of `isap_enc` may overlap those of `isap_mac`: they do not exist at the same
time.) -/
theorem C51_kref_encrypt_partial (x : Bool) (e : Env) (s : St) (a : EncArgs) (F : Frame) (V : ValidEnc e a) (L : (kRef x).limits.Enc e a)
    (U : KArrays e a F) (hal : ∀ u ∈ F.arrays, Aligned e 2 u 50) :
    ∃ s1 s2, Runs ((kRef x).aead.encrypt a) e s 0 s1 ∧ Runs ((kRefIn x F).encrypt a) e s 0 s2 ∧ SameOutside 50 F.arrays s2 s1 := by
  obtain ⟨s1, h1, _⟩ := (kRef x).encryptOK e s a V L
  obtain ⟨s2, h2, ho, _⟩ := (kRefIn_both x hal).1 V U h1
  exact ⟨s1, s2, h1, h2, ho⟩

/-- **C51** The same for decryption. -/
theorem C51_kref_decrypt_partial (x : Bool) (e : Env) (s : St) (a : DecArgs) (F : Frame) (V : ValidDec e a) (L : (kRef x).limits.Dec e a)
    (U : KArraysDec e a F) (hal : ∀ u ∈ F.arrays, Aligned e 2 u 50) :
    ∃ r s1 s2, Runs ((kRef x).aead.decrypt a) e s r s1 ∧ Runs ((kRefIn x F).decrypt a) e s r s2 ∧ SameOutside 50 F.arrays s2 s1 := by
  obtain ⟨r, s1, h1⟩ := dec_exists V L s
  obtain ⟨s2, h2, ho, _⟩ := (kRefIn_both x hal).2 V U h1
  exact ⟨r, s1, s2, h1, h2, ho⟩

/-- Nothing clears the array of `isap_rk`: after encryption the derived key of the stream cipher remains in its memory (if the arrays of
`isap_mac` have not been put in the same place). -/
theorem C51_kref_key_remains (x : Bool) (e : Env) (s s' : St) (a : EncArgs) (F : Frame) (V : ValidEnc e a) (L : (kRef x).limits.Enc e a)
    (U : KArrays e a F) (hal : ∀ u ∈ F.arrays, Aligned e 2 u 50) (hm : 0 < a.mlen) (h1 : Disjoint F.encRk 50 F.mac 50)
    (h2 : Disjoint F.encRk 50 F.macRk 50) (r : Int) (h : Runs ((kRefIn x F).encrypt a) e s r s') :
    bytesAt s' F.encRk 34 = (kPar x).rk (bytesAt s a.k 16) ((kPar x).iv 3) (bytesAt s a.npub 16) 34 := by
  obtain ⟨s1, hr, _⟩ := (kRef x).encryptOK e s a V L
  obtain ⟨s2, hr2, _, hk⟩ := (kRefIn_both x hal).1 V U hr
  obtain ⟨_, rfl⟩ := h.det hr2
  exact hk hm h1 h2

/-- After decryption it remains wherever the other arrays are. -/
theorem C51_kref_key_remains_dec (x : Bool) (e : Env) (s s' : St) (a : DecArgs) (F : Frame) (V : ValidDec e a) (L : (kRef x).limits.Dec e a)
    (U : KArraysDec e a F) (hal : ∀ u ∈ F.arrays, Aligned e 2 u 50) (hm : 16 < a.clen) (h : Runs ((kRefIn x F).decrypt a) e s 0 s') :
    bytesAt s' F.encRk 34 = (kPar x).rk (bytesAt s a.k 16) ((kPar x).iv 3) (bytesAt s a.npub 16) 34 := by
  obtain ⟨r, s1, hr⟩ := dec_exists V L s
  obtain ⟨s2, hr2, _, hk⟩ := (kRefIn_both x hal).2 V U hr
  obtain ⟨rfl, rfl⟩ := h.det hr2
  exact hk rfl hm

theorem kpermute_aligned {r : Ptr} {n : Nat} {e : Env} (he : e.strict = true) {s s' : St} {u : Unit}
    (h : Runs (KeccakRef.In.permute r n) e s u s') : (e.base r.blk + r.off) % 2 = 0 := by
  unfold KeccakRef.In.permute at h
  obtain ⟨_, _, h, _⟩ := runs_bind_inv h
  obtain ⟨_, _, _, h⟩ := runs_bind_inv h
  obtain ⟨_, _, h, _⟩ := runs_bind_inv h
  obtain ⟨_, _, ⟨tr, h⟩, _⟩ := runs_bind_inv h
  simp only [load, run] at h
  split at h
  · split at h
    · rename_i ha
      simpa [alignedOk, he] using ha
    · simp at h
  · simp at h

theorem krk_aligned {G : Ref.Cfg} {q k : Ptr} {iv : List Byte} {inp : Src} {n m : Nat} {e : Env} (he : e.strict = true) {s s' : St}
    {r : List Byte} (h : Runs (KeccakRef.In.isapRk G q k iv inp n m) e s r s') : (e.base q.blk + q.off) % 2 = 0 := by
  unfold KeccakRef.In.isapRk at h
  iterate 3 obtain ⟨_, _, _, h⟩ := runs_bind_inv h
  obtain ⟨_, _, h, _⟩ := runs_bind_inv h
  exact kpermute_aligned he h

theorem kmac_aligned {G : Ref.Cfg} {p q k npub ad c : Ptr} {adlen clen : Nat} {e : Env} (he : e.strict = true) {s s' : St}
    {r : List Byte} (h : Runs (KeccakRef.In.isapMac G p q k npub ad adlen c clen) e s r s') :
    (e.base p.blk + p.off) % 2 = 0 ∧ (e.base q.blk + q.off) % 2 = 0 := by
  unfold KeccakRef.In.isapMac at h
  iterate 3 obtain ⟨_, _, _, h⟩ := runs_bind_inv h
  obtain ⟨_, _, hp, h⟩ := runs_bind_inv h
  refine ⟨kpermute_aligned he hp, ?_⟩
  iterate 9 obtain ⟨_, _, _, h⟩ := runs_bind_inv h
  obtain ⟨_, _, h, _⟩ := runs_bind_inv h
  exact krk_aligned he h

/-- **C51**, the exception: on a platform that does not tolerate misaligned accesses, every encryption and every decryption is undefined
if the compiler has placed the array of `isap_mac`, or that of `isap_rk` when called by it, at an odd address. -/
theorem C51_kref_misaligned (x : Bool) (e : Env) (he : e.strict = true) (s : St) (F : Frame)
    (h : (e.base F.mac.blk + F.mac.off) % 2 ≠ 0 ∨ (e.base F.macRk.blk + F.macRk.off) % 2 ≠ 0) :
    (∀ a : EncArgs, IsUB ((kRefIn x F).encrypt a) e s) ∧ (∀ a : DecArgs, IsUB ((kRefIn x F).decrypt a) e s) := by
  have key : ∀ G : Ref.Cfg, (∀ a : EncArgs, IsUB ((KeccakRef.In.impl G F).aead.encrypt a) e s) ∧
      (∀ a : DecArgs, IsUB ((KeccakRef.In.impl G F).aead.decrypt a) e s) := by
    intro G
    constructor
    · intro a
      rcases runs_or_ub ((KeccakRef.In.impl G F).aead.encrypt a) e s with ⟨r, s', hr⟩ | hr
      · iterate 2 obtain ⟨_, _, _, hr⟩ := runs_bind_inv hr
        obtain ⟨_, _, hr, _⟩ := runs_bind_inv hr
        have := kmac_aligned he hr
        omega
      · exact hr
    · intro a
      rcases runs_or_ub ((KeccakRef.In.impl G F).aead.decrypt a) e s with ⟨r, s', hr⟩ | hr
      · iterate 2 obtain ⟨_, _, _, hr⟩ := runs_bind_inv hr
        obtain ⟨_, _, hr, _⟩ := runs_bind_inv hr
        have := kmac_aligned he hr
        omega
      · exact hr
  cases x
  · exact key _
  · exact key _

theorem frame_kref (x : Bool) : (kRef x).limits.al ≠ 0 := by cases x <;> exact Nat.succ_ne_zero _

theorem frame_karrays {F : Frame} (h : ∀ u ∈ F.arrays, 9 ≤ u.blk) (henc : Disjoint F.enc 50 F.encRk 50)
    (hmac : Disjoint F.mac 50 F.macRk 50) : KArraysDec frameEnv Sample.dec F :=
  ⟨fun u hu => frame_state 50 u.blk u.off (h u hu), henc, hmac⟩

/-- **C51 is false** of the Keccak reference. -/
theorem C51_kref_false (x : Bool) : ¬ AnyKState x := by
  intro h
  obtain ⟨r, s', tr, hr⟩ := h.2 frameEnv Sample.st Sample.dec ⟨⟨10, 0⟩, ⟨10, 50⟩, ⟨9, 0⟩, ⟨10, 50⟩⟩ frame_valid
    (frame_limits (kRef x) (frame_kref x)) (frame_karrays (by decide) (by decide) (by decide))
  obtain ⟨u, hub⟩ := (C51_kref_misaligned x frameEnv rfl Sample.st ⟨⟨10, 0⟩, ⟨10, 50⟩, ⟨9, 0⟩, ⟨10, 50⟩⟩ (.inl (by decide))).2 Sample.dec
  rw [hr] at hub
  exact nomatch hub

/-- isapxv20/ref with the parameters of ISAP-K is the same program. -/
example : (Target.x .k128a).aead = (kRef true).aead ∧ (Target.x .k128).aead = (kRef false).aead := ⟨rfl, rfl⟩

/-! ### The hypotheses can be met -/

example (x : Bool) : ∃ r s1 s2, Runs ((kRef x).aead.decrypt Sample.dec) frameEnv Sample.st r s1 ∧
    Runs ((kRefIn x ⟨⟨10, 0⟩, ⟨10, 50⟩, ⟨10, 0⟩, ⟨10, 50⟩⟩).decrypt Sample.dec) frameEnv Sample.st r s2 ∧
    SameOutside 50 [⟨10, 0⟩, ⟨10, 50⟩, ⟨10, 0⟩, ⟨10, 50⟩] s2 s1 :=
  C51_kref_decrypt_partial x frameEnv Sample.st Sample.dec _ frame_valid (frame_limits (kRef x) (frame_kref x))
    (frame_karrays (by decide) (by decide) (by decide)) (by decide)

example (x : Bool) (s : St) (a : EncArgs) : IsUB ((kRefIn x ⟨⟨10, 0⟩, ⟨10, 50⟩, ⟨10, 0⟩, ⟨9, 50⟩⟩).encrypt a) frameEnv s :=
  (C51_kref_misaligned x frameEnv rfl s _ (.inr (by decide))).1 a

theorem frameEnc_kref (x : Bool) : (kRef x).limits.Enc frameEnv frameEnc := by
  have h20 := (Sample.limits (kRef x)).1
  have al : ∀ b n, b ≠ 9 → Aligned frameEnv (kRef x).limits.al ⟨b, 0⟩ n := fun b n hb => .inr (.inr ⟨frame_kref x, by simp [frameEnv, hb]⟩)
  exact
    { k := al _ _ (by decide), npub := al _ _ (by decide), ad := al _ _ (by decide), c := al _ _ (by decide), m := al _ _ (by decide)
      tag := by cases x <;> exact .inr (.inr ⟨Nat.succ_ne_zero _, Nat.mod_one _⟩)
      adlen_lt := h20, mlen_lt := Nat.lt_trans (by decide) h20, over := fun _ _ => rfl }

example (x : Bool) : ∃ s', Runs ((kRefIn x ⟨⟨10, 0⟩, ⟨10, 50⟩, ⟨10, 100⟩, ⟨10, 150⟩⟩).encrypt frameEnc) frameEnv Sample.st 0 s' ∧
    bytesAt s' ⟨10, 50⟩ 34 = (kPar x).rk (bytesAt Sample.st ⟨5, 0⟩ 16) ((kPar x).iv 3) (bytesAt Sample.st ⟨4, 0⟩ 16) 34 := by
  have U : KArrays frameEnv frameEnc ⟨⟨10, 0⟩, ⟨10, 50⟩, ⟨10, 100⟩, ⟨10, 150⟩⟩ :=
    ⟨fun u hu => frameEnc_state 50 u.blk u.off (by revert u; decide), by decide, by decide⟩
  obtain ⟨_, s', _, h, _⟩ := C51_kref_encrypt_partial x frameEnv Sample.st frameEnc _ frameEnc_valid (frameEnc_kref x) U (by decide)
  exact ⟨s', h, C51_kref_key_remains x frameEnv Sample.st s' frameEnc _ frameEnc_valid (frameEnc_kref x) U (by decide) (by decide) (by decide)
    (by decide) 0 h⟩

end Props
