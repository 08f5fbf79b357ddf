import Verif.Model.Tables
import Verif.Proof.Targets
import Verif.Proof.Hash
import Verif.Proof.Llp64
import Verif.Proof.Reads
/-!
# Implementations with their tables in memory
-/

namespace Model
open C

/-- The tables are in memory and aligned. -/
structure Tables.Ok (T : Tables) (e : Env) (iv : Nat → List Byte) (s : St) : Prop where
  a : ConstTable e s T.a (iv 1)
  ka : ConstTable e s T.ka (iv 2)
  ke : ConstTable e s T.ke (iv 3)

theorem ConstTable.step {e : Env} {s s' : St} {p : Ptr} {bs : List Byte} (h : ConstTable e s p bs) {f : CM α} {a : α}
    (hr : Runs f e s a s') : ConstTable e s' p bs := by
  obtain ⟨tr, hr⟩ := hr
  refine ⟨h.rd, h.ro, ?_⟩
  rw [← h.bytes]
  apply List.ext_getElem
  · simp
  · intro i h1 h2
    rw [getElem_bytesAt, getElem_bytesAt]
    exact run_frame f hr _ _ (h.ro i (by simpa using h1))

theorem Tables.Ok.step {T : Tables} {e : Env} {iv : Nat → List Byte} {s s' : St} (h : T.Ok e iv s) {f : CM α} {a : α}
    (hr : Runs f e s a s') : T.Ok e iv s' := ⟨h.a.step hr, h.ka.step hr, h.ke.step hr⟩

/-- The two programs have the same outcomes in states that satisfy `Q`. -/
structure Agree (e : Env) (Q : St → Prop) (f g : CM α) : Prop where
  iff : ∀ s, Q s → ∀ a s', Runs f e s a s' ↔ Runs g e s a s'

/-- `Q` stays true. -/
structure Stable (e : Env) (Q : St → Prop) : Prop where
  step : ∀ {α : Type} (f : CM α) (s s' : St) (a : α), Q s → Runs f e s a s' → Q s'

theorem Agree.refl {e : Env} {Q : St → Prop} {f : CM α} : Agree e Q f f := ⟨fun _ _ _ _ => Iff.rfl⟩

theorem Agree.bind {e : Env} {Q : St → Prop} (hQ : Stable e Q) {f f' : CM α} {g g' : α → CM β} (h : Agree e Q f f')
    (h' : ∀ a, Agree e Q (g a) (g' a)) : Agree e Q (f >>= g) (f' >>= g') := by
  refine ⟨fun s hs b s'' => ?_⟩
  constructor
  · intro hr
    obtain ⟨a, s', h1, h2⟩ := runs_bind_inv hr
    exact runs_bind ((h.iff s hs a s').1 h1) (((h' a).iff s' (hQ.step f s s' a hs h1) b s'').1 h2)
  · intro hr
    obtain ⟨a, s', h1, h2⟩ := runs_bind_inv hr
    exact runs_bind ((h.iff s hs a s').2 h1) (((h' a).iff s' (hQ.step f' s s' a hs h1) b s'').2 h2)

theorem Agree.bindr {e : Env} {Q : St → Prop} (hQ : Stable e Q) {f : CM α} {g g' : α → CM β}
    (h' : ∀ a, Agree e Q (g a) (g' a)) : Agree e Q (f >>= g) (f >>= g') := Agree.bind hQ Agree.refl h'

theorem Agree.bindl {e : Env} {Q : St → Prop} (hQ : Stable e Q) {f f' : CM α} {g : α → CM β} (h : Agree e Q f f') :
    Agree e Q (f >>= g) (f' >>= g) := Agree.bind hQ h fun _ => Agree.refl

theorem Agree.ite {e : Env} {Q : St → Prop} {b : Bool} {f f' g g' : CM α} (h : Agree e Q f f') (h' : Agree e Q g g') :
    Agree e Q (if b then f else g) (if b then f' else g') := by cases b <;> assumption

theorem Agree.ifThen {e : Env} {Q : St → Prop} (hQ : Stable e Q) {b : Prop} [Decidable b] {f f' : CM Unit} (h : Agree e Q f f') :
    Agree e Q (C.ifThen b f) (C.ifThen b f') := by
  unfold C.ifThen
  exact Agree.bindr hQ fun c => Agree.ite h Agree.refl

/-- A load of a table gives its contents. -/
theorem Agree.load {e : Env} {Q : St → Prop} {p : Ptr} {bs : List Byte} (hp : Aligned e 8 p 8) (hb : ∀ s, Q s → ConstTable e s p bs)
    {g : BitVec 64 → CM β} {g' : CM β} (h : Agree e Q (g (le64 bs)) g') : Agree e Q (load64 (p + 0) >>= g) g' := by
  refine ⟨fun s hs b s' => ?_⟩
  have hl : Runs (load64 (p + 0)) e s (le64 bs) s := by
    have := runs_load64 (s := s) (p := p) hp (hb s hs).rd
    rw [(hb s hs).bytes] at this
    exact this
  rw [← h.iff s hs b s']
  constructor
  · intro hr
    obtain ⟨w, s1, h1, h2⟩ := runs_bind_inv hr
    obtain ⟨rfl, rfl⟩ := h1.det hl
    exact h2
  · exact fun hr => runs_bind hl hr

variable {T : Tables} {e : Env}

theorem Tables.stable (T : Tables) (e : Env) (iv : Nat → List Byte) : Stable e (T.Ok e iv) := ⟨fun _ _ _ _ h hr => h.step hr⟩

/-- `crypto_aead_encrypt` with two implementations that agree. -/
theorem Agree.encrypt {Q : St → Prop} (hQ : Stable e Q) {I J : Impl} (ht : I.tagAlign = J.tagAlign)
    (he : ∀ k npub m mlen c, Agree e Q (I.enc k npub m mlen c) (J.enc k npub m mlen c))
    (hm : ∀ k npub ad adlen c clen, Agree e Q (I.mac k npub ad adlen c clen) (J.mac k npub ad adlen c clen)) (a : EncArgs) :
    Agree e Q (I.aead.encrypt a) (J.aead.encrypt a) := by
  unfold Impl.aead
  unfold Model.encrypt
  rw [ht]
  exact .bindr hQ fun _ => .bind hQ (.ifThen hQ (he ..)) fun _ => .bindl hQ (hm ..)

/-- `crypto_aead_decrypt` with two implementations that agree. -/
theorem Agree.decrypt {Q : St → Prop} (hQ : Stable e Q) {I J : Impl}
    (he : ∀ k npub m mlen c, Agree e Q (I.enc k npub m mlen c) (J.enc k npub m mlen c))
    (hm : ∀ k npub ad adlen c clen, Agree e Q (I.mac k npub ad adlen c clen) (J.mac k npub ad adlen c clen)) (a : DecArgs) :
    Agree e Q (I.aead.decrypt a) (J.aead.decrypt a) := by
  unfold Impl.aead
  unfold Model.decrypt
  exact .bindr hQ fun _ => .bindr hQ fun _ => .bind hQ (hm ..) fun _ => .bindr hQ fun _ => .bindr hQ fun _ =>
    .ite (.bindr hQ fun _ => .bindl hQ (.ifThen hQ (.bindr hQ fun _ => he ..))) .refl

/-- The tables are aligned. -/
structure Tables.Al (T : Tables) (e : Env) : Prop where
  a : Aligned e 8 T.a 8
  ka : Aligned e 8 T.ka 8
  ke : Aligned e 8 T.ke 8

namespace Opt
variable {D : Prims}

theorem agree_rk {Q : St → Prop} {p : Ptr} {bs : List Byte} (hl : bs.length = 8) (hp : Aligned e 8 p 8)
    (hb : ∀ s, Q s → ConstTable e s p bs) (k : Ptr) (y : Src) (out : State) (n : Nat) :
    Agree e Q (isapRkAt D k p y out n) (isapRk D k bs y out n) := by
  unfold isapRkAt
  refine .load hp hb ?_
  rw [toLe64_le64 hl]
  exact .refl

theorem agree_absorb (h : T.Al e) (npub ad : Ptr) (adlen : Nat) (c : Ptr) (clen : Nat) :
    Agree e (T.Ok e iv) (macAbsorbAt D T npub ad adlen c clen) (macAbsorb D npub ad adlen c clen) := by
  have hQ := T.stable e iv
  exact .bindr hQ fun _ => .bindr hQ fun _ => .load h.a (fun s hs => hs.a) .refl

theorem agree_mac (h : T.Al e) (k npub ad : Ptr) (adlen : Nat) (c : Ptr) (clen : Nat) :
    Agree e (T.Ok e iv) (isapMacAt D T k npub ad adlen c clen) (isapMac D k npub ad adlen c clen) := by
  have hQ := T.stable e iv
  exact .bind hQ (agree_absorb h ..) fun _ => .bindl hQ (agree_rk (by rfl) h.ka (fun s hs => hs.ka) ..)

theorem agree_enc (h : T.Al e) (k npub m : Ptr) (mlen : Nat) (c : Ptr) :
    Agree e (T.Ok e iv) (isapEncAt D T k npub m mlen c) (isapEnc D k npub m mlen c) :=
  .bindl (T.stable e iv) (agree_rk (by rfl) h.ke (fun s hs => hs.ke) ..)

theorem agree_encrypt (h : T.Al e) (a : EncArgs) : Agree e (T.Ok e iv) ((implAt D T).aead.encrypt a) ((impl D).aead.encrypt a) :=
  .encrypt (I := implAt D T) (J := impl D) (T.stable e iv) rfl (fun _ _ _ _ _ => agree_enc h ..) (fun _ _ _ _ _ _ => agree_mac h ..) a

theorem agree_decrypt (h : T.Al e) (a : DecArgs) : Agree e (T.Ok e iv) ((implAt D T).aead.decrypt a) ((impl D).aead.decrypt a) :=
  .decrypt (I := implAt D T) (J := impl D) (T.stable e iv) (fun _ _ _ _ _ => agree_enc h ..) (fun _ _ _ _ _ _ => agree_mac h ..) a

theorem agree_hash {p : Ptr} (hp : Aligned e 8 p 8) (out inp : Ptr) (inlen : Nat) :
    Agree e (fun s => ConstTable e s p hashIV) (cryptoHashAt D p out inp inlen) (cryptoHash D out inp inlen) :=
  .load hp (fun _ hs => hs) .refl

end Opt

namespace Opt.Stp
variable {D : StpPrims}

theorem agree_mac (h : T.Al e) (k npub ad : Ptr) (adlen : Nat) (c : Ptr) (clen : Nat) :
    Agree e (T.Ok e iv) (isapMacAt D T k npub ad adlen c clen) (isapMac D k npub ad adlen c clen) := by
  have hQ := T.stable e iv
  exact .bind hQ (agree_absorb h ..) fun _ => .bindr hQ fun _ => .bindr hQ fun _ =>
    .bindl hQ (agree_rk (by rfl) h.ka (fun s hs => hs.ka) ..)

theorem agree_encrypt (h : T.Al e) (a : EncArgs) : Agree e (T.Ok e iv) ((aeadAt D T).encrypt a) ((aead D).encrypt a) :=
  Agree.encrypt (I := implAt D T) (J := impl D) (T.stable e iv) rfl (fun _ _ _ _ _ => Opt.agree_enc h ..) (fun _ _ _ _ _ _ => agree_mac h ..) a

theorem agree_decrypt (h : T.Al e) (a : DecArgs) : Agree e (T.Ok e iv) ((aeadAt D T).decrypt a) ((aead D).decrypt a) := by
  have hQ := T.stable e iv
  unfold aeadAt aead
  unfold decrypt
  exact .bindr hQ fun _ => .bindr hQ fun _ => .bind hQ (agree_mac h ..) fun _ => .bindr hQ fun _ => .bindr hQ fun _ => .bindr hQ fun _ =>
    .ite (.bindr hQ fun _ => .bindl hQ (.ifThen hQ (.bindr hQ fun _ => agree_enc h ..))) .refl

end Opt.Stp

namespace A128.Opt64
variable {D : Cfg}

theorem agree_rk {Q : St → Prop} {p : Ptr} {bs : List Byte} (hl : bs.length = 8) (hp : Aligned e 8 p 8)
    (hb : ∀ s, Q s → ConstTable e s p bs) (k : Ptr) (y : Src) (out : Opt.State) (n : Nat) :
    Agree e Q (isapRkAt D k p y out n) (isapRk D k bs y out n) := by
  unfold isapRkAt
  refine .load hp hb ?_
  rw [toLe64_le64 hl]
  exact .refl

theorem agree_mac (hl : ∀ n, (D.iv n).length = 8) (h : T.Al e) (k npub ad : Ptr) (adlen : Nat) (c : Ptr) (clen : Nat) :
    Agree e (T.Ok e D.iv) (isapMacAt D T k npub ad adlen c clen) (isapMac D k npub ad adlen c clen) := by
  have hQ := T.stable e D.iv
  exact .bind hQ (.bindr hQ fun _ => .bindr hQ fun _ => .load h.a (fun s hs => hs.a) .refl) fun _ =>
    .bindl hQ (agree_rk (hl 2) h.ka (fun s hs => hs.ka) ..)

theorem agree_enc (hl : ∀ n, (D.iv n).length = 8) (h : T.Al e) (k npub m : Ptr) (mlen : Nat) (c : Ptr) :
    Agree e (T.Ok e D.iv) (isapEncAt D T k npub m mlen c) (isapEnc D k npub m mlen c) :=
  .bindl (T.stable e D.iv) (agree_rk (hl 3) h.ke (fun s hs => hs.ke) ..)

theorem agree_encrypt (hl : ∀ n, (D.iv n).length = 8) (h : T.Al e) (a : EncArgs) :
    Agree e (T.Ok e D.iv) ((implAt D T).aead.encrypt a) ((impl D).aead.encrypt a) :=
  .encrypt (I := implAt D T) (J := impl D) (T.stable e D.iv) rfl (fun _ _ _ _ _ => agree_enc hl h ..) (fun _ _ _ _ _ _ => agree_mac hl h ..) a

theorem agree_decrypt (hl : ∀ n, (D.iv n).length = 8) (h : T.Al e) (a : DecArgs) :
    Agree e (T.Ok e D.iv) ((implAt D T).aead.decrypt a) ((impl D).aead.decrypt a) :=
  .decrypt (I := implAt D T) (J := impl D) (T.stable e D.iv) (fun _ _ _ _ _ => agree_enc hl h ..) (fun _ _ _ _ _ _ => agree_mac hl h ..) a

end A128.Opt64

namespace A128.Opt32
variable {D : Prims}

theorem agree_rk {Q : St → Prop} {p : Ptr} {bs : List Byte} (hl : bs.length = 8) (hp : Aligned e 8 p 8)
    (hb : ∀ s, Q s → ConstTable e s p bs) (k : Ptr) (y : Src) (n : Nat) : Agree e Q (isapRkAt D k p y n) (isapRk D k bs y n) := by
  unfold isapRkAt
  refine .load hp hb ?_
  rw [toLe64_le64 hl]
  exact .refl

theorem agree_mac (h : T.Al e) (k npub ad : Ptr) (adlen : Nat) (c : Ptr) (clen : Nat) :
    Agree e (T.Ok e iv) (isapMacAt D T k npub ad adlen c clen) (isapMac D k npub ad adlen c clen) := by
  have hQ := T.stable e iv
  exact .bind hQ (.bindr hQ fun _ => .bindr hQ fun _ => .load h.a (fun s hs => hs.a) .refl) fun _ =>
    .bindl hQ (agree_rk (by rfl) h.ka (fun s hs => hs.ka) ..)

theorem agree_enc (h : T.Al e) (k npub m : Ptr) (mlen : Nat) (c : Ptr) :
    Agree e (T.Ok e iv) (isapEncAt D T k npub m mlen c) (isapEnc D k npub m mlen c) :=
  .bindl (T.stable e iv) (agree_rk (by rfl) h.ke (fun s hs => hs.ke) ..)

theorem agree_encrypt (h : T.Al e) (a : EncArgs) : Agree e (T.Ok e iv) ((implAt D T).aead.encrypt a) ((impl D).aead.encrypt a) :=
  .encrypt (I := implAt D T) (J := impl D) (T.stable e iv) rfl (fun _ _ _ _ _ => agree_enc h ..) (fun _ _ _ _ _ _ => agree_mac h ..) a

theorem agree_decrypt (h : T.Al e) (a : DecArgs) : Agree e (T.Ok e iv) ((implAt D T).aead.decrypt a) ((impl D).aead.decrypt a) :=
  .decrypt (I := implAt D T) (J := impl D) (T.stable e iv) (fun _ _ _ _ _ => agree_enc h ..) (fun _ _ _ _ _ _ => agree_mac h ..) a

end A128.Opt32

namespace A128.Avx

theorem agree_encrypt (d : DataModel) (h : T.Al e) (a : EncArgs) : Agree e (T.Ok e iv) ((aeadAt d T).encrypt a) ((aead d).encrypt a) := by
  have hQ := T.stable e iv
  unfold aeadAt aead
  unfold encrypt
  refine .bindr hQ fun _ => .bindl hQ ?_
  refine .bind hQ ?_ fun _ => .bindr hQ fun _ => .bindr hQ fun _ => .bindl hQ (Opt64.agree_rk (by rfl) h.ka (fun s hs => hs.ka) ..)
  exact .bind hQ (Opt64.agree_rk (by rfl) h.ke (fun s hs => hs.ke) ..) fun _ => .bindr hQ fun _ => .bindr hQ fun _ => .bindr hQ fun _ =>
    .bindr hQ fun _ => .load h.a (fun s hs => hs.a) .refl

end A128.Avx
end Model
