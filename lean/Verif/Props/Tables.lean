import Verif.Proof.Tables
import Verif.Props.Placement
/-!
# Constant tables in memory (C51)
-/

namespace Props
open C Model Spec

/-- The tables `T` are in memory that cannot be written, and contain the initial values of the parameter set. -/
structure TablesIn (t : Target) (T : Tables) (e : Env) (s : St) : Prop where
  a : ConstTable e s T.a t.set.spec.ivA
  ka : ConstTable e s T.ka t.set.spec.ivKA
  ke : ConstTable e s T.ke t.set.spec.ivKE

/-- **C51**, the property of one implementation for its tables: a valid call that respects the limits of the implementation ends
normally wherever the linker has placed the arrays of bytes `ISAP_IV_A`, `ISAP_IV_KA` and `ISAP_IV_KE`. -/
def AnyTables (t : Target) : Prop :=
  ∀ (e : Env) (s : St) (T : Tables), TablesIn t T e s →
    (∀ a, ValidEnc e a → t.limits.Enc e a → ∃ r s', Runs ((t.aeadAt T).encrypt a) e s r s') ∧
    (∀ a, ValidDec e a → t.limits.Dec e a → ∃ r s', Runs ((t.aeadAt T).decrypt a) e s r s')

/-- **C51** If the tables are aligned, both functions do with the tables in memory what they do in the other theorems, for all
arguments. -/
theorem C51_tables_partial (t : Target) (T : Tables) (e : Env) (s : St) (H : TablesIn t T e s) (ha : Aligned e 8 T.a 8)
    (hka : Aligned e 8 T.ka 8) (hke : Aligned e 8 T.ke 8) :
    (∀ a r s', Runs ((t.aeadAt T).encrypt a) e s r s' ↔ Runs (t.aead.encrypt a) e s r s') ∧
    (∀ a r s', Runs ((t.aeadAt T).decrypt a) e s r s' ↔ Runs (t.aead.decrypt a) e s r s') := by
  have A : T.Al e := ⟨ha, hka, hke⟩
  cases t with
  | a128aAvx512 d =>
    have O : T.Ok e A128.Avx.iv s := ⟨H.a, H.ka, H.ke⟩
    exact ⟨fun a => (A128.Avx.agree_encrypt d A a).iff s O, fun a => (A128.Opt64.agree_decrypt (D := A128.Avx.cfg d) (fun _ => rfl) A a).iff s O⟩
  | a128Opt64 d =>
    have O : T.Ok e A128.iv s := ⟨H.a, H.ka, H.ke⟩
    exact ⟨fun a => (A128.Opt64.agree_encrypt (D := A128.Opt64.cfg d) (fun _ => rfl) A a).iff s O,
      fun a => (A128.Opt64.agree_decrypt (D := A128.Opt64.cfg d) (fun _ => rfl) A a).iff s O⟩
  | a128Opt32 | a128Opt32Armv67m =>
    have O : T.Ok e A128.iv s := ⟨H.a, H.ka, H.ke⟩
    exact ⟨fun a => (A128.Opt32.agree_encrypt A a).iff s O, fun a => (A128.Opt32.agree_decrypt A a).iff s O⟩
  | a128aOpt32Stp | a128aBi32Stp | a128aBi32Armv6mStp =>
    have O : T.Ok e Opt.iv s := ⟨H.a, H.ka, H.ke⟩
    exact ⟨fun a => (Opt.Stp.agree_encrypt A a).iff s O, fun a => (Opt.Stp.agree_decrypt A a).iff s O⟩
  | ref _ | x _ | k128aOpt64 | k128Opt64 | k128aAvx512 _ | k128aOpt32Armv6m | k128aOpt32Armv7m | k128Opt32Armv6m | k128Opt32Armv7m =>
    exact ⟨fun _ _ _ => Iff.rfl, fun _ _ _ => Iff.rfl⟩
  | _ =>
    have O : T.Ok e Opt.iv s := ⟨H.a, H.ka, H.ke⟩
    exact ⟨fun a => (Opt.agree_encrypt A a).iff s O, fun a => (Opt.agree_decrypt A a).iff s O⟩

/-- Likewise for `crypto_hash` and the table `ASCON_HASH_IV`. -/
theorem C51_hash_table_partial (t : Target) (f g : Ptr → Ptr → Nat → CM Int) (iv : Ptr) (hf : t.hash = some f) (hg : t.hashAt iv = some g)
    (e : Env) (s : St) (H : ConstTable e s iv AsconHash.iv) (ha : Aligned e 8 iv 8) (out inp : Ptr) (inlen : Nat) (r : Int) (s' : St) :
    Runs (g out inp inlen) e s r s' ↔ Runs (f out inp inlen) e s r s' := by
  unfold Target.hash at hf
  unfold Target.hashAt at hg
  cases hD : t.hashPrims with
  | none => rw [hD] at hf; exact nomatch hf
  | some D =>
    rw [hD] at hf hg
    cases hf
    cases hg
    exact (Opt.agree_hash ha out inp inlen).iff s H r s'

/-- On the platform `e` the word at `p` can be read. -/
abbrev WordAt (e : Env) (p : Ptr) : Prop := (e.base p.blk + p.off) % 8 = 0

section
variable {T : Tables} {e : Env} (he : e.strict = true) {s s' : St}
include he

theorem table_word {p : Ptr} {g : BitVec 64 → CM α} {x : α} (h : Runs (load64 (p + 0) >>= g) e s x s') : WordAt e p := by
  obtain ⟨_, _, h, _⟩ := runs_bind_inv h
  exact load64_inv h he

theorem opt_mac_word {D : Opt.Prims} {x : List Byte} (h : Runs (Opt.isapMacAt D T k npub ad adlen c clen) e s x s') :
    WordAt e T.a ∧ WordAt e T.ka := by
  unfold Opt.isapMacAt at h
  obtain ⟨_, _, h1, h⟩ := runs_bind_inv h
  obtain ⟨_, _, h2, _⟩ := runs_bind_inv h
  unfold Opt.macAbsorbAt at h1
  iterate 2 obtain ⟨_, _, _, h1⟩ := runs_bind_inv h1
  exact ⟨table_word he h1, table_word he h2⟩

theorem stp_mac_word {D : Opt.StpPrims} {x : List Byte} (h : Runs (Opt.Stp.isapMacAt D T k npub ad adlen c clen) e s x s') :
    WordAt e T.a ∧ WordAt e T.ka := by
  unfold Opt.Stp.isapMacAt at h
  obtain ⟨_, _, h1, h⟩ := runs_bind_inv h
  iterate 2 obtain ⟨_, _, _, h⟩ := runs_bind_inv h
  obtain ⟨_, _, h2, _⟩ := runs_bind_inv h
  unfold Opt.macAbsorbAt at h1
  iterate 2 obtain ⟨_, _, _, h1⟩ := runs_bind_inv h1
  exact ⟨table_word he h1, table_word he h2⟩

theorem opt64_mac_word {D : A128.Opt64.Cfg} {x : List Byte} (h : Runs (A128.Opt64.isapMacAt D T k npub ad adlen c clen) e s x s') :
    WordAt e T.a ∧ WordAt e T.ka := by
  unfold A128.Opt64.isapMacAt at h
  obtain ⟨_, _, h1, h⟩ := runs_bind_inv h
  obtain ⟨_, _, h2, _⟩ := runs_bind_inv h
  unfold A128.Opt64.macAbsorbAt at h1
  iterate 2 obtain ⟨_, _, _, h1⟩ := runs_bind_inv h1
  exact ⟨table_word he h1, table_word he h2⟩

theorem opt32_mac_word {D : A128.Opt32.Prims} {x : List Byte} (h : Runs (A128.Opt32.isapMacAt D T k npub ad adlen c clen) e s x s') :
    WordAt e T.a ∧ WordAt e T.ka := by
  unfold A128.Opt32.isapMacAt at h
  obtain ⟨_, _, h1, h⟩ := runs_bind_inv h
  obtain ⟨_, _, h2, _⟩ := runs_bind_inv h
  unfold A128.Opt32.macAbsorbAt at h1
  iterate 2 obtain ⟨_, _, _, h1⟩ := runs_bind_inv h1
  exact ⟨table_word he h1, table_word he h2⟩

theorem avx_word {d : DataModel} {a : EncArgs} {x : Int} (h : Runs ((A128.Avx.aeadAt d T).encrypt a) e s x s') :
    WordAt e T.a ∧ WordAt e T.ka := by
  unfold A128.Avx.aeadAt at h
  obtain ⟨_, _, _, h⟩ := runs_bind_inv h
  obtain ⟨_, _, h, _⟩ := runs_bind_inv h
  unfold A128.Avx.isapMacEncAt at h
  obtain ⟨_, _, h1, h⟩ := runs_bind_inv h
  iterate 2 obtain ⟨_, _, _, h⟩ := runs_bind_inv h
  obtain ⟨_, _, h2, _⟩ := runs_bind_inv h
  unfold A128.Avx.startAt at h1
  iterate 5 obtain ⟨_, _, _, h1⟩ := runs_bind_inv h1
  exact ⟨table_word he h1, table_word he h2⟩

omit he

theorem encrypt_mac {I : Impl} {a : EncArgs} {x : Int} (h : Runs (I.aead.encrypt a) e s x s') :
    ∃ y s1 s2, Runs (I.mac a.k a.npub a.ad a.adlen a.c a.mlen) e s1 y s2 := by
  unfold Impl.aead Model.encrypt at h
  iterate 2 obtain ⟨_, _, _, h⟩ := runs_bind_inv h
  obtain ⟨_, _, h, _⟩ := runs_bind_inv h
  exact ⟨_, _, _, h⟩

theorem decrypt_mac {I : Impl} {a : DecArgs} {x : Int} (h : Runs (I.aead.decrypt a) e s x s') :
    ∃ l y s1 s2, Runs (I.mac a.k a.npub a.ad a.adlen a.c l) e s1 y s2 := by
  unfold Impl.aead Model.decrypt at h
  iterate 2 obtain ⟨_, _, _, h⟩ := runs_bind_inv h
  obtain ⟨_, _, h, _⟩ := runs_bind_inv h
  exact ⟨_, _, _, _, h⟩

theorem stp_encrypt_mac {D : Opt.StpPrims} {a : EncArgs} {x : Int} (h : Runs ((Opt.Stp.aeadAt D T).encrypt a) e s x s') :
    ∃ y s1 s2, Runs (Opt.Stp.isapMacAt D T a.k a.npub a.ad a.adlen a.c a.mlen) e s1 y s2 :=
  encrypt_mac (I := Opt.Stp.implAt D T) h

theorem stp_decrypt_mac {D : Opt.StpPrims} {a : DecArgs} {x : Int} (h : Runs ((Opt.Stp.aeadAt D T).decrypt a) e s x s') :
    ∃ l y s1 s2, Runs (Opt.Stp.isapMacAt D T a.k a.npub a.ad a.adlen a.c l) e s1 y s2 := by
  unfold Opt.Stp.aeadAt at h
  iterate 2 obtain ⟨_, _, _, h⟩ := runs_bind_inv h
  obtain ⟨_, _, h, _⟩ := runs_bind_inv h
  exact ⟨_, _, _, _, h⟩

end

theorem encrypt_words (t : Target) (ht : t.tablesByWords = true) {T : Tables} {e : Env} (he : e.strict = true) {s s' : St} {a : EncArgs}
    {r : Int} (h : Runs ((t.aeadAt T).encrypt a) e s r s') : WordAt e T.a ∧ WordAt e T.ka := by
  cases t with
  | a128aAvx512 d => exact avx_word he h
  | a128Opt64 d => obtain ⟨_, _, _, h⟩ := encrypt_mac (I := A128.Opt64.implAt _ T) h; exact opt64_mac_word he h
  | a128Opt32 | a128Opt32Armv67m => obtain ⟨_, _, _, h⟩ := encrypt_mac (I := A128.Opt32.implAt _ T) h; exact opt32_mac_word he h
  | a128aOpt32Stp => obtain ⟨_, _, _, h⟩ := stp_encrypt_mac (D := Opt.Opt32.primsStp) h; exact stp_mac_word he h
  | a128aBi32Stp => obtain ⟨_, _, _, h⟩ := stp_encrypt_mac (D := Opt.Bi32.primsStp) h; exact stp_mac_word he h
  | a128aBi32Armv6mStp => obtain ⟨_, _, _, h⟩ := stp_encrypt_mac (D := Opt.Armv6m.primsStp) h; exact stp_mac_word he h
  | ref _ | x _ | k128aOpt64 | k128Opt64 | k128aAvx512 _ | k128aOpt32Armv6m | k128aOpt32Armv7m | k128Opt32Armv6m | k128Opt32Armv7m =>
    exact nomatch ht
  | _ => obtain ⟨_, _, _, h⟩ := encrypt_mac (I := Opt.implAt _ T) h; exact opt_mac_word he h

theorem decrypt_words (t : Target) (ht : t.tablesByWords = true) {T : Tables} {e : Env} (he : e.strict = true) {s s' : St} {a : DecArgs}
    {r : Int} (h : Runs ((t.aeadAt T).decrypt a) e s r s') : WordAt e T.a ∧ WordAt e T.ka := by
  cases t with
  | a128aAvx512 d => obtain ⟨_, _, _, _, h⟩ := decrypt_mac (I := A128.Opt64.implAt _ T) h; exact opt64_mac_word he h
  | a128Opt64 d => obtain ⟨_, _, _, _, h⟩ := decrypt_mac (I := A128.Opt64.implAt _ T) h; exact opt64_mac_word he h
  | a128Opt32 | a128Opt32Armv67m => obtain ⟨_, _, _, _, h⟩ := decrypt_mac (I := A128.Opt32.implAt _ T) h; exact opt32_mac_word he h
  | a128aOpt32Stp | a128aBi32Stp | a128aBi32Armv6mStp => obtain ⟨_, _, _, _, h⟩ := stp_decrypt_mac h; exact stp_mac_word he h
  | ref _ | x _ | k128aOpt64 | k128Opt64 | k128aAvx512 _ | k128aOpt32Armv6m | k128aOpt32Armv7m | k128Opt32Armv6m | k128Opt32Armv7m =>
    exact nomatch ht
  | _ => obtain ⟨_, _, _, _, h⟩ := decrypt_mac (I := Opt.implAt _ T) h; exact opt_mac_word he h

/-- **C51**, the exception: on a platform that does not tolerate misaligned accesses, if one of the tables that every call reads is
not aligned, every call is undefined. -/
theorem C51_tables_misaligned (t : Target) (ht : t.tablesByWords = true) (T : Tables) (e : Env) (he : e.strict = true) (s : St)
    (hT : (e.base T.a.blk + T.a.off) % 8 ≠ 0 ∨ (e.base T.ka.blk + T.ka.off) % 8 ≠ 0) :
    (∀ a, IsUB ((t.aeadAt T).encrypt a) e s) ∧ (∀ a, IsUB ((t.aeadAt T).decrypt a) e s) := by
  constructor
  · intro a
    rcases runs_or_ub ((t.aeadAt T).encrypt a) e s with ⟨r, s', h⟩ | h
    · have := encrypt_words t ht he h
      rcases hT with h | h
      · exact absurd this.1 h
      · exact absurd this.2 h
    · exact h
  · intro a
    rcases runs_or_ub ((t.aeadAt T).decrypt a) e s with ⟨r, s', h⟩ | h
    · have := decrypt_words t ht he h
      rcases hT with h | h
      · exact absurd this.1 h
      · exact absurd this.2 h
    · exact h

/-- Likewise for `crypto_hash`. -/
theorem C51_hash_table_misaligned (t : Target) (g : Ptr → Ptr → Nat → CM Int) (iv : Ptr) (hg : t.hashAt iv = some g) (e : Env)
    (he : e.strict = true) (hiv : (e.base iv.blk + iv.off) % 8 ≠ 0) (s : St) (out inp : Ptr) (inlen : Nat) :
    IsUB (g out inp inlen) e s := by
  unfold Target.hashAt at hg
  cases hD : t.hashPrims with
  | none => rw [hD] at hg; exact nomatch hg
  | some D =>
    rw [hD] at hg
    cases hg
    rcases runs_or_ub (Opt.cryptoHashAt D iv out inp inlen) e s with ⟨r, s', h⟩ | h
    · exact absurd (table_word he h) hiv
    · exact h

/-- A strict platform, on which the objects 9 and 10 are read-only; 9 is at an odd address, the others are aligned. -/
def tableEnv : Env := ⟨fun _ _ => true, fun b _ => decide (b ≠ 9 ∧ b ≠ 10), fun b => if b = 9 then 1 else 0, true⟩

/-- A state with the tables of `t` one after the other in the objects 9 and 10. -/
def tableSt (t : Target) : St :=
  { Sample.st with mem := fun b o =>
      if b = 9 ∨ b = 10 then (t.set.spec.ivA ++ t.set.spec.ivKA ++ t.set.spec.ivKE ++ AsconHash.iv).getD o 0 else Sample.st.mem b o }

theorem table_in (t : Target) (b : Nat) (hb : b = 9 ∨ b = 10) : TablesIn t ⟨⟨b, 0⟩, ⟨b, 8⟩, ⟨b, 16⟩⟩ tableEnv (tableSt t) := by
  refine ⟨⟨fun _ _ => rfl, fun i _ => ?_, ?_⟩, ⟨fun _ _ => rfl, fun i _ => ?_, ?_⟩, ⟨fun _ _ => rfl, fun i _ => ?_, ?_⟩⟩ <;>
    rcases hb with rfl | rfl <;> rfl

/-- Encrypt 8 bytes. -/
def tableEnc : EncArgs := { Sample.enc with mlen := 8 }

theorem table_valid : ValidEnc tableEnv tableEnc where
  k := fun _ _ => rfl
  npub := fun _ _ => rfl
  ad := fun _ _ => rfl
  m := fun _ _ => rfl
  c := fun _ _ => ⟨rfl, rfl⟩
  clen := fun _ _ => ⟨rfl, rfl⟩
  adlen_lt := by decide
  mlen_lt := by decide
  c_m := by decide
  c_ad := by decide
  c_npub := by decide
  c_k := by decide
  clen_c := by decide
  clen_m := by decide
  clen_ad := by decide
  clen_npub := by decide
  clen_k := by decide

theorem table_limits (t : Target) (ht : t.tablesByWords = true) : t.limits.Enc tableEnv tableEnc := by
  have h20 := (Sample.limits t).1
  have h : t.limits.al = 8 ∧ (t.limits.tal = 8 ∨ t.limits.tal = 1) := by
    cases t <;> first | exact ⟨rfl, .inl rfl⟩ | exact ⟨rfl, .inr rfl⟩ | exact absurd ht (by simp [Target.tablesByWords])
  have al : ∀ b o n, b ≠ 9 → o % 8 = 0 → Aligned tableEnv 8 ⟨b, o⟩ n := fun b o n hb ho =>
    .inr (.inr ⟨by decide, by simp [tableEnv, hb, ho]⟩)
  have tag : Aligned tableEnv t.limits.tal (tableEnc.c + tableEnc.mlen) 16 := by
    rcases h.2 with h | h <;> rw [h]
    · exact al _ _ _ (by decide) (by decide)
    · exact aligned_one ..
  exact
    { k := by rw [h.1]; exact al _ _ _ (by decide) (by decide), npub := by rw [h.1]; exact al _ _ _ (by decide) (by decide)
      ad := by rw [h.1]; exact al _ _ _ (by decide) (by decide), c := by rw [h.1]; exact al _ _ _ (by decide) (by decide)
      m := by rw [h.1]; exact al _ _ _ (by decide) (by decide), tag := tag
      adlen_lt := h20, mlen_lt := Nat.lt_trans (by decide) h20, over := fun _ _ => rfl }

/-- **C51 is false** of the implementations that read the tables by words. -/
theorem C51_tables_false (t : Target) (ht : t.tablesByWords = true) : ¬ AnyTables t := by
  intro h
  obtain ⟨r, s', tr, hr⟩ := (h tableEnv (tableSt t) _ (table_in t 9 (.inl rfl))).1 tableEnc table_valid (table_limits t ht)
  obtain ⟨u, hub⟩ := (C51_tables_misaligned t ht ⟨⟨9, 0⟩, ⟨9, 8⟩, ⟨9, 16⟩⟩ tableEnv rfl (tableSt t) (.inl (by decide))).1 tableEnc
  rw [hr] at hub
  exact nomatch hub

/-- Of the others it is true. -/
theorem C51_tables_iff (t : Target) : AnyTables t ↔ t.tablesByWords = false := by
  constructor
  · intro h
    cases ht : t.tablesByWords with
    | false => rfl
    | true => exact absurd h (C51_tables_false t ht)
  · intro ht e s T _
    have : t.aeadAt T = t.aead := by cases t <;> first | rfl | exact absurd ht (by simp [Target.tablesByWords])
    rw [this]
    refine ⟨fun a V L => ?_, fun a V L => dec_exists V L s⟩
    obtain ⟨s2, h2, _⟩ := t.encryptOK e s a V L
    exact ⟨_, _, h2⟩

/-- The hypotheses of the theorems can be met, with the tables aligned and misaligned. -/
example (t : Target) : TablesIn t ⟨⟨10, 0⟩, ⟨10, 8⟩, ⟨10, 16⟩⟩ tableEnv (tableSt t) ∧ Aligned tableEnv 8 ⟨10, 0⟩ 8 ∧
    Aligned tableEnv 8 ⟨10, 8⟩ 8 ∧ Aligned tableEnv 8 ⟨10, 16⟩ 8 :=
  ⟨table_in t 10 (.inr rfl), by decide, by decide, by decide⟩
example (t : Target) (ht : t.tablesByWords = true) : ∃ s', Runs ((t.aeadAt ⟨⟨10, 0⟩, ⟨10, 8⟩, ⟨10, 16⟩⟩).encrypt tableEnc) tableEnv (tableSt t) 0 s' := by
  obtain ⟨s2, h2, _⟩ := t.encryptOK tableEnv (tableSt t) tableEnc table_valid (table_limits t ht)
  exact ⟨s2, ((C51_tables_partial t _ tableEnv _ (table_in t 10 (.inr rfl)) (by decide) (by decide) (by decide)).1 _ _ _).2 h2⟩
example (t : Target) : ConstTable tableEnv (tableSt t) ⟨10, 24⟩ AsconHash.iv ∧ Aligned tableEnv 8 ⟨10, 24⟩ 8 :=
  ⟨⟨fun _ _ => rfl, fun _ _ => rfl, rfl⟩, by decide⟩
example : ∃ f g, Target.a128aOpt64.hash = some f ∧ Target.a128aOpt64.hashAt ⟨10, 24⟩ = some g := ⟨_, _, rfl, rfl⟩

end Props
