import Verif.Props.EffectiveType
import Verif.Props.RefArrays
import Verif.Props.AvxArrays
/-!
# Effective types of the arrays that an implementation declares (C50)

The rule applies to the implementation's own arrays as it does to the caller's: `tag`, `state`, `ke` and `state_mac` are declared as
arrays of characters.
-/

namespace Props
open C Model Spec
open KeccakRef.In (Frame)

/-- The access `x` is in the execution of `f`, whenever that ends normally. -/
def Accesses (f : CM α) (x : Access) : Prop := ∀ (e : Env) (s s' : St) (r : α), Runs f e s r s' → x ∈ accesses f s

theorem Accesses.left {f : CM α} {g : α → CM β} {x : Access} (h : Accesses f x) : Accesses (f >>= g) x := by
  intro e s s' r hr
  obtain ⟨_, _, h1, _⟩ := runs_bind_inv hr
  exact access_left h1 (h _ _ _ _ h1)

theorem Accesses.right {f : CM α} {g : α → CM β} {x : Access} (h : ∀ a, Accesses (g a) x) : Accesses (f >>= g) x := by
  intro e s s' r hr
  obtain ⟨_, _, h1, h2⟩ := runs_bind_inv hr
  exact access_right h1 (h _ _ _ _ _ h2)

theorem Accesses.ifThen {c : Bool} {f : CM Unit} {x : Access} (hc : c = true) (h : Accesses f x) : Accesses (ifThen c f) x := by
  subst hc
  intro e s s' r hr
  obtain ⟨b, _, h1, h2⟩ := runs_bind_inv hr
  obtain ⟨rfl, rfl⟩ := h1.det (runs_branch _ _ _)
  exact access_right h1 (h _ _ _ _ h2)

theorem Accesses.load (al w : Nat) (p : Ptr) : Accesses (load al w p) ⟨false, al, p, w⟩ := fun _ _ _ _ _ => List.mem_cons_self ..

theorem Accesses.store (al : Nat) (p : Ptr) (bs : List Byte) : Accesses (store al p bs) ⟨true, al, p, bs.length⟩ :=
  fun _ _ _ _ _ => List.mem_cons_self ..

theorem Accesses.load64 (p : Ptr) : Accesses (load64 p) ⟨false, 8, p, 8⟩ := (Accesses.load 8 8 p).left

theorem Accesses.store64 (p : Ptr) (x : BitVec 64) : Accesses (store64 p x) ⟨true, 8, p, 8⟩ := Accesses.store 8 p (toLe64 x)

theorem acc_permute (r : Ptr) (n : Nat) : Accesses (KeccakRef.In.permute r n) ⟨false, 2, r, 2⟩ := by
  refine Accesses.left ?_
  refine Accesses.right fun _ => Accesses.left ?_
  exact (Accesses.load 2 2 r).left

theorem acc_kmac (G : Ref.Cfg) (p q k npub ad : Ptr) (adlen : Nat) (c : Ptr) (clen : Nat) :
    Accesses (KeccakRef.In.isapMac G p q k npub ad adlen c clen) ⟨false, 2, p, 2⟩ :=
  .right fun _ => .right fun _ => .right fun _ => (acc_permute p _).left

/-- The Keccak reference declares `state` as an array of `unsigned char`, and reads it as 16-bit integers: every encryption and every
decryption that ends normally does so, wherever the arrays are. -/
theorem C50_kref_state (x : Bool) (F : Frame) (e : Env) (s s' : St) (r : Int) :
    (∀ a : EncArgs, Runs ((kRefIn x F).encrypt a) e s r s' → (⟨false, 2, F.mac, 2⟩ : Access) ∈ accesses ((kRefIn x F).encrypt a) s) ∧
    (∀ a : DecArgs, Runs ((kRefIn x F).decrypt a) e s r s' → (⟨false, 2, F.mac, 2⟩ : Access) ∈ accesses ((kRefIn x F).decrypt a) s) := by
  have key : ∀ G : Ref.Cfg, (∀ a : EncArgs, Accesses ((KeccakRef.In.impl G F).aead.encrypt a) ⟨false, 2, F.mac, 2⟩) ∧
      (∀ a : DecArgs, Accesses ((KeccakRef.In.impl G F).aead.decrypt a) ⟨false, 2, F.mac, 2⟩) := fun G =>
    ⟨fun a => .right fun _ => .right fun _ => .left (acc_kmac G F.mac _ _ _ _ _ _ _), fun a => .right fun _ => .right fun _ => .left (acc_kmac G F.mac _ _ _ _ _ _ _)⟩
  cases x
  · exact ⟨fun a h => (key _).1 a _ _ _ _ h, fun a h => (key _).2 a _ _ _ _ h⟩
  · exact ⟨fun a h => (key _).1 a _ _ _ _ h, fun a h => (key _).2 a _ _ _ _ h⟩

theorem acc_mac64 (D : A128.Opt64.Cfg) (st k npub ad : Ptr) (adlen : Nat) (c : Ptr) (clen : Nat) :
    Accesses (A128.Opt64.isapMacIn D st k npub ad adlen c clen) ⟨true, 8, st, 8⟩ :=
  .right fun _ => (Accesses.store64 st _).left

/-- isapa128v20/opt_64, and decryption by isapa128av20/avx_512, write `u8 state[40]` as 64-bit integers. -/
theorem C50_state (d : DataModel) (u v : Ptr) (e : Env) (s s' : St) (r : Int) :
    (∀ a : EncArgs, Runs ((opt64In d u v).encrypt a) e s r s' → (⟨true, 8, v, 8⟩ : Access) ∈ accesses ((opt64In d u v).encrypt a) s) ∧
    (∀ a : DecArgs, Runs ((opt64In d u v).decrypt a) e s r s' → (⟨true, 8, v, 8⟩ : Access) ∈ accesses ((opt64In d u v).decrypt a) s) ∧
    (∀ a : DecArgs, Runs (avxDecryptIn d u v a) e s r s' → (⟨true, 8, v, 8⟩ : Access) ∈ accesses (avxDecryptIn d u v a) s) := by
  have key : ∀ D, (∀ a : EncArgs, Accesses ((A128.Opt64.implIn D u v).aead.encrypt a) ⟨true, 8, v, 8⟩) ∧
      (∀ a : DecArgs, Accesses ((A128.Opt64.implIn D u v).aead.decrypt a) ⟨true, 8, v, 8⟩) := fun D =>
    ⟨fun a => .right fun _ => .right fun _ => .left (acc_mac64 D v _ _ _ _ _ _), fun a => .right fun _ => .right fun _ => .left (acc_mac64 D v _ _ _ _ _ _)⟩
  exact ⟨fun a h => (key _).1 a _ _ _ _ h, fun a h => (key _).2 a _ _ _ _ h, fun a h => (key _).2 a _ _ _ _ h⟩

theorem acc_rk32 (D : A128.Opt32.Prims) (k : Ptr) (iv : List Byte) (y : Src) (out : Ptr) (n : Nat) :
    Accesses (A128.Opt32.isapRkTo D k iv y out n) ⟨true, 4, out, 4⟩ := by
  refine .right fun _ => .right fun _ => .right fun _ => .right fun _ => .right fun _ => .right fun _ => Accesses.left ?_
  exact Accesses.store 4 out _

/-- isapa128v20/opt_32 and opt_32_armv67m write `u8 ke[24]` as 32-bit integers when they encrypt a message that is not empty. -/
theorem C50_ke (arm : Bool) (p : Ptr) (e : Env) (s s' : St) (r : Int) (a : EncArgs) (hm : 0 < a.mlen)
    (h : Runs ((opt32In arm p).encrypt a) e s r s') : (⟨true, 4, p, 4⟩ : Access) ∈ accesses ((opt32In arm p).encrypt a) s := by
  have key : ∀ D, Accesses ((A128.Opt32.implIn D p).aead.encrypt a) ⟨true, 4, p, 4⟩ := fun D =>
    .right fun _ => Accesses.left (Accesses.ifThen (decide_eq_true hm) (Accesses.left (acc_rk32 D _ _ _ p _)))
  cases arm
  · exact key _ _ _ _ _ h
  · exact key _ _ _ _ _ h

/-- isapa128av20/avx_512 writes `u8 state_mac[40]` as 64-bit integers. -/
theorem C50_avx_state (d : DataModel) (u v : Ptr) (e : Env) (s s' : St) (r : Int) (a : EncArgs)
    (h : Runs (avxEncryptIn d u v a) e s r s') : (⟨true, 8, v, 8⟩ : Access) ∈ accesses (avxEncryptIn d u v a) s := by
  have key : Accesses (A128.Avx.encryptIn d u v a) ⟨true, 8, v, 8⟩ := by
    refine .right fun _ => Accesses.left ?_
    refine .right fun _ => .right fun _ => .right fun _ => ?_
    exact (Accesses.store64 v _).left
  exact key _ _ _ _ h

/-- The store of the tag by words. -/
theorem acc_storeTag {al : Nat} (hal : al = 2 ∨ al = 8) (p : Ptr) (t : List Byte) (ht : t.length = 16) :
    Accesses (storeTag al p t) ⟨true, al, p, al⟩ := by
  have h : Accesses (store al (p + al * 0) ((t.drop (al * 0)).take al)) ⟨true, al, p, al⟩ := by
    have := Accesses.store al (p + al * 0) ((t.drop (al * 0)).take al)
    rw [List.length_take, List.length_drop, ht] at this
    rcases hal with rfl | rfl <;> exact this
  rcases hal with rfl | rfl
  · exact .right fun _ => .left h
  · exact .right fun _ => .left h

/-- `f` returns 16 bytes whenever it ends normally. -/
def Gives16 (f : CM (List Byte)) : Prop := ∀ (e : Env) (s s' : St) (r : List Byte), Runs f e s r s' → r.length = 16

theorem Gives16.right {f : CM α} {g : α → CM (List Byte)} (h : ∀ a, Gives16 (g a)) : Gives16 (f >>= g) := by
  intro e s s' r hr
  obtain ⟨_, _, _, h2⟩ := runs_bind_inv hr
  exact h _ _ _ _ _ h2

theorem Gives16.ret {l : List Byte} (h : l.length = 16) : Gives16 (pure l) := by
  intro e s s' r ⟨tr, hr⟩
  have hr : Out.ok l s [] = Out.ok r s' tr := hr
  simp only [Out.ok.injEq] at hr
  rw [← hr.1, h]

theorem acc_decryptAt {I : Impl} (hI : I.tagAlign = 2 ∨ I.tagAlign = 8) (a : DecArgs) (u : Ptr)
    (h : ∀ k npub ad adlen c clen, Gives16 (I.mac k npub ad adlen c clen)) :
    Accesses (I.decryptAt u a) ⟨true, I.tagAlign, u, I.tagAlign⟩ := by
  refine .right fun _ => .right fun l => ?_
  intro e s s' r hr
  obtain ⟨t, _, h1, h2⟩ := runs_bind_inv hr
  exact access_right h1 (Accesses.left (acc_storeTag hI u t (h _ _ _ _ _ _ _ _ _ _ h1)) _ _ _ _ h2)

theorem mac64_16 (D : A128.Opt64.Cfg) (k npub ad : Ptr) (adlen : Nat) (c : Ptr) (clen : Nat) :
    Gives16 (A128.Opt64.isapMac D k npub ad adlen c clen) := by
  unfold A128.Opt64.isapMac
  repeat' first | (refine Gives16.right fun _ => ?_) | (refine Gives16.ret ?_)
  all_goals rw [List.length_append, length_toLe64, length_toLe64]

theorem mac32_16 (D : A128.Opt32.Prims) (k npub ad : Ptr) (adlen : Nat) (c : Ptr) (clen : Nat) :
    Gives16 (A128.Opt32.isapMac D k npub ad adlen c clen) := by
  unfold A128.Opt32.isapMac
  repeat' first | (refine Gives16.right fun _ => ?_) | (refine Gives16.ret ?_)
  all_goals rw [List.length_append, length_toLe64, length_toLe64]

theorem macK_16 (D : K128.Prims) (hD : ∀ S, 16 ≤ (D.pH S).length) (k npub ad : Ptr) (adlen : Nat) (c : Ptr) (clen : Nat) :
    Gives16 (K128.isapMac D k npub ad adlen c clen) := by
  unfold K128.isapMac
  repeat' first | (refine Gives16.right fun _ => ?_) | (refine Gives16.ret ?_)
  all_goals exact List.length_take_of_le (hD _)

theorem unwords_16 (A : KeccakRef.Lanes) : 16 ≤ (KeccakRef.unwords A).length := by
  rw [KeccakRef.unwords_eq, Spec.Keccak.length_toBytes]; decide

/-- The three stp variants: they store `T` by `memcpy` and read it through the union `lane_t`, which is permitted. -/
def isStp : Target → Bool
  | .a128aOpt32Stp | .a128aBi32Stp | .a128aBi32Armv6mStp => true
  | _ => false

/-- `tag[16]` in `crypto_aead_decrypt` is declared as an array of `unsigned char`. The implementations listed with words of 2 or 8 bytes
store it through a pointer to an integer of this size: every decryption that ends normally does so, whatever it returns. -/
theorem C50_tag_writes (t : Target) (ht : t.localAlign ≠ 1) (hs : isStp t = false) (e : Env) (s s' : St) (a : DecArgs) (u v : Ptr)
    (r : Int) (h : Runs (t.decryptAt u v a) e s r s') :
    1 < t.localAlign ∧ (⟨true, t.localAlign, u, t.localAlign⟩ : Access) ∈ accesses (t.decryptAt u v a) s := by
  cases t
  case a128aAvx512 d => exact ⟨show 1 < 8 by decide, acc_decryptAt (I := A128.Avx.impl d) (.inr rfl) a u (mac64_16 _) _ _ _ _ h⟩
  case a128Opt64 d => exact ⟨show 1 < 8 by decide, acc_decryptAt (I := A128.Opt64.impl _) (.inr rfl) a u (mac64_16 _) _ _ _ _ h⟩
  case a128Opt32 => exact ⟨by decide, acc_decryptAt (I := A128.Opt32.impl _) (.inr rfl) a u (mac32_16 _) _ _ _ _ h⟩
  case a128Opt32Armv67m => exact ⟨by decide, acc_decryptAt (I := A128.Opt32.impl _) (.inr rfl) a u (mac32_16 _) _ _ _ _ h⟩
  case k128aOpt64 =>
    exact ⟨by decide, acc_decryptAt (I := K128.impl K128.Opt64.primsK128a) (.inl rfl) a u (macK_16 _ fun _ => unwords_16 _) _ _ _ _ h⟩
  case k128Opt64 =>
    exact ⟨by decide, acc_decryptAt (I := K128.impl K128.Opt64.primsK128) (.inl rfl) a u (macK_16 _ fun _ => unwords_16 _) _ _ _ _ h⟩
  all_goals first | exact absurd rfl ht | exact Bool.noConfusion hs

/-- There is an address of the object of `p` for which the access at `p` is misaligned. -/
theorem exists_misaligned_at (e : Env) (he : e.strict = true) (p : Ptr) {al : Nat} (h : al ≠ 1) :
    ∃ n, alignedOk { e with base := fun i => if i = p.blk then n else e.base i } p al = false := by
  obtain ⟨base, hb⟩ := exists_misaligned e p h
  refine ⟨base p.blk, ?_⟩
  simpa [alignedOk, he] using hb

/-- Code that accesses an object by words fails for some address of this object on a platform with alignment requirements. -/
theorem words_fail_at (f : CM α) (b : Nat) : ∀ (e : Env) (s : St), e.strict = true → (∃ x ∈ accesses f s, x.p.blk = b ∧ x.al ≠ 1) →
    ∃ n, ∀ a s', ¬ Runs f { e with base := fun i => if i = b then n else e.base i } s a s' := by
  induction f with
  | ret a => intro e s _ ⟨x, h, _⟩; exact nomatch h
  | ub u => intro e s _ ⟨x, h, _⟩; exact nomatch h
  | load al w p k ih =>
    intro e s he ⟨x, h, hb, hx⟩
    rcases List.mem_cons.1 h with rfl | h
    · obtain ⟨n, hn⟩ := exists_misaligned_at e he p hx
      have hb : p.blk = b := hb
      rw [hb] at hn
      refine ⟨n, fun a s' ⟨tr, hr⟩ => ?_⟩
      simp only [run, hn] at hr
      split at hr <;> exact nomatch hr
    · obtain ⟨n, hn⟩ := ih _ e s he ⟨x, h, hb, hx⟩
      refine ⟨n, fun a s' ⟨tr, hr⟩ => ?_⟩
      simp only [run] at hr
      split at hr
      · split at hr
        · obtain ⟨tr', h'⟩ := cons_ok hr; exact hn a s' ⟨tr', h'⟩
        · exact nomatch hr
      · exact nomatch hr
  | store al p bs k ih =>
    intro e s he ⟨x, h, hb, hx⟩
    rcases List.mem_cons.1 h with rfl | h
    · obtain ⟨n, hn⟩ := exists_misaligned_at e he p hx
      have hb : p.blk = b := hb
      rw [hb] at hn
      refine ⟨n, fun a s' ⟨tr, hr⟩ => ?_⟩
      simp only [run, hn] at hr
      split at hr <;> exact nomatch hr
    · obtain ⟨n, hn⟩ := ih e _ he ⟨x, h, hb, hx⟩
      refine ⟨n, fun a s' ⟨tr, hr⟩ => ?_⟩
      simp only [run] at hr
      split at hr
      · split at hr
        · split at hr
          · obtain ⟨tr', h'⟩ := cons_ok hr; exact hn a s' ⟨tr', h'⟩
          · exact nomatch hr
        · exact nomatch hr
      · exact nomatch hr
  | branch c k ih =>
    intro e s he h
    obtain ⟨n, hn⟩ := ih e s he h
    exact ⟨n, fun a s' ⟨tr, hr⟩ => by obtain ⟨tr', h'⟩ := cons_ok hr; exact hn a s' ⟨tr', h'⟩⟩
  | getg g k ih =>
    intro e s he h
    obtain ⟨n, hn⟩ := ih _ e s he h
    exact ⟨n, fun a s' ⟨tr, hr⟩ => by obtain ⟨tr', h'⟩ := cons_ok hr; exact hn a s' ⟨tr', h'⟩⟩
  | setg g v k ih =>
    intro e s he h
    obtain ⟨n, hn⟩ := ih e _ he h
    exact ⟨n, fun a s' ⟨tr, hr⟩ => by obtain ⟨tr', h'⟩ := cons_ok hr; exact hn a s' ⟨tr', h'⟩⟩

/-- The array at `u` is an object of its own: no pointer of the caller is to this object. -/
structure OwnObject (a : DecArgs) (u : Ptr) : Prop where
  k : a.k.blk ≠ u.blk
  npub : a.npub.blk ≠ u.blk
  ad : a.ad.blk ≠ u.blk
  c : a.c.blk ≠ u.blk
  m : a.m.blk ≠ u.blk

/-- **C50** The other implementations access `tag[16]` only as characters (or by `memcpy`), in every valid decryption with buffers of
the caller that are aligned as the implementation requires. -/
theorem C50_tag_partial (t : Target) (ht : t.localAlign = 1) (e : Env) (he : e.strict = true) (s : St) (a : DecArgs) (u v : Ptr)
    (V : ValidDec e a) (L : t.limits.Dec e a) (U : LocalArray e a u) (U' : LocalArray e a v) (huv : Disjoint u 16 v 16)
    (O : OwnObject a u) : ∀ x ∈ accesses (t.decryptAt u v a) s, x.p.blk = u.blk → x.al = 1 := by
  intro x hx hb
  refine Decidable.byContradiction fun hal => ?_
  obtain ⟨n, hn⟩ := words_fail_at (t.decryptAt u v a) u.blk e s he ⟨x, hx, hb, hal⟩
  have al : ∀ {w : Nat} {p : Ptr} {l : Nat}, p.blk ≠ u.blk → Aligned e w p l →
      Aligned { e with base := fun i => if i = u.blk then n else e.base i } w p l := by
    intro w p l hp h
    simpa [Aligned, hp] using h
  obtain ⟨r, _, s2, _, h2, _⟩ := C51_decrypt_partial t { e with base := fun i => if i = u.blk then n else e.base i } s a u v
    ⟨⟨V.k, V.npub, V.ad, V.c, V.mlen, V.adlen_lt, V.clen_lt, V.clen_ge, V.mlen_c, V.mlen_ad, V.mlen_npub, V.mlen_k⟩, V.m, V.m_c, V.mlen_m⟩
    ⟨al O.k L.k, al O.npub L.npub, al O.ad L.ad, al O.m L.m, al O.c L.c, L.adlen_lt, L.clen_lt, L.over⟩
    ⟨U.1, U.2, U.3, U.4, U.5, U.6, U.7⟩ ⟨U'.1, U'.2, U'.3, U'.4, U'.5, U'.6, U'.7⟩ huv (ht ▸ aligned_one ..) (ht ▸ aligned_one ..)
  exact hn r s2 h2

/-! The hypotheses of the theorems can be met. -/

example : OwnObject Sample.dec ⟨9, 0⟩ := ⟨by decide, by decide, by decide, by decide, by decide⟩
example : Target.a128aBi32.localAlign = 1 ∧ (Target.ref .k128).localAlign = 1 ∧ Target.a128aBi32.limits.al ≠ 0 := by decide
example : ∃ r s', Runs ((Target.a128Opt64 .lp64).decryptAt ⟨10, 0⟩ ⟨10, 16⟩ Sample.dec) frameEnv Sample.st r s' := by
  obtain ⟨r, _, s2, _, h, _⟩ := C51_decrypt_partial (.a128Opt64 .lp64) frameEnv Sample.st Sample.dec ⟨10, 0⟩ ⟨10, 16⟩ frame_valid
    (frame_limits _ (by decide)) (frame_local _ _ (by decide)) (frame_local _ _ (by decide)) (by decide) (by decide) (by decide)
  exact ⟨r, s2, h⟩
example (x : Bool) : ∃ r s', Runs ((kRefIn x ⟨⟨10, 0⟩, ⟨10, 50⟩, ⟨10, 0⟩, ⟨10, 50⟩⟩).decrypt Sample.dec) frameEnv Sample.st r s' := by
  obtain ⟨r, _, s2, _, h, _⟩ := C51_kref_decrypt_partial x frameEnv Sample.st Sample.dec ⟨⟨10, 0⟩, ⟨10, 50⟩, ⟨10, 0⟩, ⟨10, 50⟩⟩ frame_valid
    (frame_limits (kRef x) (frame_kref x)) (frame_karrays (by decide) (by decide) (by decide)) (by decide)
  exact ⟨r, s2, h⟩
example (d : DataModel) : ∃ s', Runs ((opt64In d ⟨10, 0⟩ ⟨10, 0⟩).encrypt frameEnc) frameEnv Sample.st 0 s' := by
  obtain ⟨_, s2, _, h, _⟩ := C51_state_encrypt_partial d frameEnv Sample.st frameEnc ⟨10, 0⟩ ⟨10, 0⟩ frameEnc_valid (frameEnc_limits d)
    (frameEnc_state _ _ _ (by decide)) (frameEnc_state _ _ _ (by decide)) (by decide) (by decide)
  exact ⟨s2, h⟩
example : 0 < frameEnc.mlen ∧ ∃ s', Runs ((opt32In true ⟨10, 4⟩).encrypt frameEnc) frameEnv Sample.st 0 s' := by
  obtain ⟨_, s2, _, h, _⟩ := C51_ke_encrypt_partial true frameEnv Sample.st frameEnc ⟨10, 4⟩ frameEnc_valid (frameEnc_limits .lp64)
    (frameEnc_state _ _ _ (by decide)) (by decide)
  exact ⟨by decide, s2, h⟩
example (d : DataModel) : ∃ s', Runs (avxEncryptIn d ⟨10, 0⟩ ⟨10, 40⟩ frameEnc) frameEnv Sample.st 0 s' := by
  obtain ⟨_, s2, _, h, _⟩ := C51_avx_encrypt_partial d frameEnv Sample.st frameEnc ⟨10, 0⟩ ⟨10, 40⟩ frameEnc_valid (frameEnc_avx d)
    (frameEnc_state _ _ _ (by decide)) (frameEnc_state _ _ _ (by decide)) (by decide) (by decide)
  exact ⟨s2, h⟩

end Props
