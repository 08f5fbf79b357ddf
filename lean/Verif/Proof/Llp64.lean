import Verif.Proof.A128aAvx
import Verif.Proof.Threads
/-!
# Long messages where `unsigned long` has 32 bits

On such a platform `isapa128v20/opt_64` and `isapa128av20/avx_512` compute offsets modulo `2^32`.  Here: encryption still ends
normally, whatever the contents of memory, without write access to the bytes that are therefore never written.
-/

namespace C

/-- `f` ends normally from every memory, with a result that satisfies `P`. -/
def Ends (f : CM α) (e : Env) (P : α → Prop) : Prop := ∀ s, ∃ a s', Runs f e s a s' ∧ P a

variable {e : Env}

theorem Ends.bind {f : CM α} {g : α → CM β} {P : α → Prop} {Q : β → Prop} (hf : Ends f e P) (hg : ∀ a, P a → Ends (g a) e Q) :
    Ends (f >>= g) e Q := by
  intro s
  obtain ⟨a, s1, h1, ha⟩ := hf s
  obtain ⟨b, s2, h2, hb⟩ := hg a ha s1
  exact ⟨b, s2, runs_bind h1 h2, hb⟩

theorem Ends.pure {a : α} {P : α → Prop} (h : P a) : Ends (pure a : CM α) e P := fun s => ⟨a, s, runs_pure _ _ _, h⟩

theorem Ends.mono {f : CM α} {P Q : α → Prop} (h : Ends f e P) (hPQ : ∀ a, P a → Q a) : Ends f e Q := by
  intro s
  obtain ⟨a, s', h, ha⟩ := h s
  exact ⟨a, s', h, hPQ a ha⟩

theorem Ends.branch (b : Bool) : Ends (branch b) e (· = b) := fun s => ⟨b, s, runs_branch _ _ _, rfl⟩

theorem Ends.ite {p : Prop} [Decidable p] {f g : CM α} {P : α → Prop} (hf : p → Ends f e P) (hg : ¬ p → Ends g e P) :
    Ends (C.branch (decide p) >>= fun b => if b then f else g) e P := by
  refine (Ends.branch _).bind fun b hb => ?_
  subst hb
  by_cases h : p
  · simpa [h] using hf h
  · simpa [h] using hg h

theorem Ends.load64 (he : e.strict = false) {p : Ptr} (h : Readable e p 8) : Ends (load64 p) e fun _ => True :=
  fun s => ⟨_, s, runs_load64 (.tolerant he 8 p 8) h, trivial⟩

theorem Ends.load8 {p : Ptr} (h : e.rd p.blk p.off = true) : Ends (load8 p) e fun _ => True :=
  fun s => ⟨_, s, runs_load8 h, trivial⟩

theorem Ends.store (he : e.strict = false) {al : Nat} {p : Ptr} {bs : List Byte} (h : Writable e p bs.length) (h0 : 0 < bs.length) :
    Ends (store al p bs) e fun _ => True :=
  fun _ => ⟨(), _, runs_store (.tolerant he al p _) h h0, trivial⟩

theorem Ends.store64 (he : e.strict = false) {p : Ptr} {x : BitVec 64} (h : Writable e p 8) : Ends (store64 p x) e fun _ => True :=
  fun _ => ⟨(), _, runs_store64 (.tolerant he 8 p 8) h, trivial⟩

theorem Ends.store8 {p : Ptr} {b : Byte} (h : Writable e p 1) : Ends (store8 p b) e fun _ => True :=
  fun _ => ⟨(), _, runs_store8 h, trivial⟩

theorem Ends.get {src : Src} {n i : Nat} (h : src.Ok e n) (hi : i < n) : Ends (src.get i) e fun _ => True :=
  fun s => ⟨_, s, runs_get h hi, trivial⟩

/-- Counted loop with an invariant. -/
theorem Ends.forN {σ : Type} {f : Nat → σ → CM σ} {P : Nat → σ → Prop} (n : Nat) :
    ∀ (i : Nat) (x : σ), P i x → (∀ j x, i ≤ j → j < i + n → P j x → Ends (f j x) e (P (j + 1))) → Ends (forN n i f x) e (P (i + n)) := by
  induction n with
  | zero => exact fun i x hx _ => (Ends.branch _).bind fun _ _ => .pure hx
  | succ n ih =>
    intro i x hx h
    refine (Ends.branch _).bind fun _ _ => (h i x (Nat.le_refl i) (by omega) hx).bind fun y hy => ?_
    have := ih (i + 1) y hy fun j z hj hj2 => h j z (by omega) (by omega)
    rwa [show i + 1 + n = i + (n + 1) by omega] at this

/-- Counted loop. -/
theorem Ends.forN' {σ : Type} {f : Nat → σ → CM σ} {n : Nat} {x : σ} (h : ∀ j x, j < n → Ends (f j x) e fun _ => True) :
    Ends (C.forN n 0 f x) e fun _ => True :=
  Ends.forN (P := fun _ _ => True) n 0 x trivial fun j x _ hj _ => h j x (by omega)

theorem Ends.storeLen (he : e.strict = false) {p : Ptr} {n : Nat} (h : Writable e p 8) : Ends (storeLen p n) e fun _ => True :=
  Ends.store he (by simpa using h) (by simp)

/-- A run changes only bytes that may be written. -/
theorem run_frame (f : CM α) {s s' : St} {a : α} {tr : List Ev} (hr : run f e s = .ok a s' tr) (b o : Nat)
    (h : e.wr b o = false) : s'.mem b o = s.mem b o := by
  induction f generalizing s tr with
  | ret x => injection hr with _ h _; rw [h]
  | ub u => exact nomatch hr
  | load al w p k ih =>
    rw [run] at hr
    split at hr
    · split at hr
      · obtain ⟨tr', ho, rfl⟩ := Out.cons_ok hr
        exact ih _ ho
      · exact nomatch hr
    · exact nomatch hr
  | store al p bs k ih =>
    rw [run] at hr
    split at hr
    · split at hr
      · split at hr
        · rename_i hw
          obtain ⟨tr', ho, rfl⟩ := Out.cons_ok hr
          rw [ih ho, putBytes_mem, if_neg]
          rintro ⟨rfl, h1, h2⟩
          rw [canWrite, List.all_eq_true] at hw
          have := hw (o - p.off) (List.mem_range.2 (by omega))
          rw [show p.off + (o - p.off) = o by omega, h] at this
          exact nomatch this
        · exact nomatch hr
      · exact nomatch hr
    · exact nomatch hr
  | branch b k ih =>
    rw [run] at hr
    obtain ⟨tr', ho, rfl⟩ := Out.cons_ok hr
    exact ih ho
  | getg g k ih =>
    rw [run] at hr
    obtain ⟨tr', ho, rfl⟩ := Out.cons_ok hr
    exact ih _ ho
  | setg g v k ih =>
    rw [run] at hr
    obtain ⟨tr', ho, rfl⟩ := Out.cons_ok hr
    rw [ih ho]
    cases g <;> rfl

/-- `e` without write access to the `n` bytes at `p`. -/
def Env.protect (e : Env) (p : Ptr) (n : Nat) : Env :=
  { e with wr := fun b o => e.wr b o && !decide (InBuf p n b o) }

theorem Env.protect_le (e : Env) (p : Ptr) (n : Nat) : EnvLe (e.protect p n) e where
  rd _ _ h := h
  wr b o h := by
    simp only [Env.protect, Bool.and_eq_true] at h
    exact h.1
  base := rfl
  strict := rfl

theorem Writable.protect {p q : Ptr} {n k : Nat} (h : Writable e q k) (hd : Disjoint q k p n) : Writable (e.protect p n) q k := by
  intro i hi
  refine ⟨(h i hi).1, ?_⟩
  have hn : ¬ InBuf p n q.blk (q.off + i) := by
    unfold InBuf Disjoint at *
    omega
  show (e.wr q.blk (q.off + i) && !decide (InBuf p n q.blk (q.off + i))) = true
  rw [(h i hi).2, decide_eq_false hn]
  rfl

/-- Code that ends normally without write access to some bytes leaves them as they are. -/
theorem Ends.keeps {f : CM α} {P : α → Prop} {p : Ptr} {n : Nat} (h : Ends f (e.protect p n) P) (s : St) :
    ∃ a s', Runs f e s a s' ∧ P a ∧ bytesAt s' p n = bytesAt s p n := by
  obtain ⟨a, s', ⟨tr, hr⟩, ha⟩ := h s
  refine ⟨a, s', ⟨tr, run_mono (Env.protect_le e p n) f hr⟩, ha, ?_⟩
  refine List.map_congr_left fun i hi => ?_
  rw [List.mem_range] at hi
  refine run_frame f hr _ _ ?_
  have hi' : InBuf p n p.blk (p.off + i) := ⟨rfl, by omega, by omega⟩
  show (e.wr p.blk (p.off + i) && !decide (InBuf p n p.blk (p.off + i))) = false
  rw [decide_eq_true hi', Bool.not_true, Bool.and_false]

end C

namespace Model
open C

variable {e : Env}

theorem ends_storeTag (he : e.strict = false) {p : Ptr} {tag : List Byte} (hp : Writable e p 16) (ht : tag.length = 16) :
    Ends (storeTag 8 p tag) e fun _ => True := by
  refine Ends.forN' fun j _ hj => Ends.store he ?_ ?_
  · have : ((tag.drop (8 * j)).take 8).length = 8 := by simp; omega
    rw [this]
    exact hp.add (by omega)
  · simp; omega

/-- Decryption with the common `crypto_aead_decrypt` succeeds if `isap_mac` yields the received tag and `isap_enc` ends. -/
theorem decrypt_accepts {I : Impl} {d : DecArgs} (V : ValidDec e d) (s : St)
    (hmac : ∀ s1, (∀ p n, Disjoint d.mlen 8 p n → bytesAt s1 p n = bytesAt s p n) →
      Runs (I.mac d.k d.npub d.ad d.adlen d.c (d.clen - 16)) e s1 (bytesAt s (d.c + (d.clen - 16)) 16) s1)
    (henc : Ends (I.enc d.k d.npub d.c (d.clen - 16) d.m) e fun _ => True) : ∃ s', Runs (I.aead.decrypt d) e s 0 s' := by
  have hge := V.clen_ge
  have hlt := V.clen_lt
  generalize hl : d.clen - 16 = l at *
  have hlcell : BitVec.ofNat 64 (d.clen + (2 ^ 64 - 16)) = BitVec.ofNat 64 l := by
    apply BitVec.eq_of_toNat_eq
    simp only [BitVec.toNat_ofNat]
    rw [show d.clen + (2 ^ 64 - 16) = l + 2 ^ 64 by omega, Nat.add_mod_right]
  generalize hs1 : putBytes s d.mlen (toLe64 (BitVec.ofNat 64 l)) = s1
  have b1 : ∀ p n, Disjoint d.mlen 8 p n → bytesAt s1 p n = bytesAt s p n := by
    intro p n h
    rw [← hs1, bytesAt_putBytes_disjoint _ _ _ _ _ (by simpa using h.symm)]
  have hT : bytesAt s1 (d.c + l) 16 = bytesAt s (d.c + l) 16 := by
    apply b1
    have := V.mlen_c
    unfold Disjoint at *
    simp only [add_blk, add_off]; omega
  have hcell : bytesAt s1 d.mlen 8 = toLe64 (BitVec.ofNat 64 l) := by
    rw [← hs1, bytesAt_putBytes_same' _ _ _ (by simp)]
  have hloadLen : Runs (loadLen d.mlen) e s1 l s1 := runs_loadLen V.mlen (by omega) hcell rfl
  have hm := hmac s1 b1
  generalize bytesAt s (d.c + l) 16 = T at *
  have hTl : T.length = 16 := by rw [← hT]; simp
  obtain ⟨u, s2, h2, _⟩ := henc s1
  refine ⟨if l > 0 then s2 else s1, ?_⟩
  refine runs_bind (runs_storeLen V.mlen) ?_
  rw [hlcell, hs1]
  refine runs_bind hloadLen (runs_bind hm (runs_bind (runs_forN_fold 16 0 0
    (g := fun i cnt => cnt + if T.getD i 0 = T.getD i 0 then 1 else 0) ?_) ?_))
  · intro j hj x
    rw [Nat.zero_add]
    refine runs_bind hloadLen ?_
    have hb := runs_load8_at (e := e) (s := s1) (p := d.c + l) (n := 16) (i := j) (V.c.add (by omega)) hj
    rw [hT, add_add] at hb
    exact runs_bind hb (runs_pure _ _ _)
  · refine runs_if_true ((count_eq T T 16 (by omega) (by omega)).2.2 rfl) ?_
    refine runs_bind hloadLen (runs_bind (a := ()) ?_ (runs_pure _ _ _))
    by_cases h0 : l > 0
    · rw [if_pos h0]
      exact runs_ifThen_true h0 (runs_bind hloadLen h2)
    · rw [if_neg h0]
      exact runs_ifThen_false h0

namespace A128.Opt64

variable {D : Cfg}

theorem ends_isapRk (he : e.strict = false) {k : Ptr} {iv : List Byte} {y : Src} {out : Opt.State} {outlen : Nat}
    (hk : Readable e k 16) (hy : y.Ok e 16) : Ends (isapRk D k iv y out outlen) e fun _ => True := by
  refine (Ends.load64 he (hk.add (by omega))).bind fun _ _ => (Ends.load64 he (hk.add (by omega))).bind fun _ _ => ?_
  refine (Ends.forN' fun j x hj => (Ends.get hy (by omega)).bind fun _ _ => .pure trivial).bind fun _ _ => ?_
  refine (Ends.get hy (by omega)).bind fun _ _ => ?_
  exact Ends.ite (fun _ => .pure trivial) (fun _ => .pure trivial)

theorem ends_padByte {src : Ptr} {rem i : Nat} {lane : List Byte} (h : Readable e src rem) :
    Ends (padByte src rem i lane) e fun _ => True := by
  refine Ends.ite (fun hi => ?_) (fun _ => Ends.ite (fun _ => .pure trivial) (fun _ => .pure trivial))
  exact (Ends.load8 (h i hi)).bind fun _ _ => .pure trivial

theorem ends_absorbLanes (he : e.strict = false) {pH : Opt.State → Opt.State} {d : DataModel} {x : Opt.State}
    {src : Ptr} {len : Nat} (h : Readable e src len) : Ends (absorbLanes pH d x src len) e fun _ => True := by
  have h : Readable e src (len % d.ulong) := h.mono (Nat.mod_le _ _)
  unfold absorbLanes
  generalize len % d.ulong = len at *
  rw [whileRem_eq]
  obtain ⟨hb1, hb2⟩ := remBlocks_le (r := 8) (by decide) len
  generalize remBlocks 8 len = n at *
  refine (Ends.forN' fun j x hj => (Ends.load64 he (h.add (by omega))).bind fun _ _ => .pure trivial).bind fun _ _ => ?_
  refine Ends.ite (fun h8 => ?_) (fun _ => ?_)
  · exact (Ends.load64 he (h.add (by omega))).bind fun _ _ => .pure trivial
  · refine (Ends.forN' fun j x hj => ends_padByte (h.add (by omega))).bind fun _ _ => .pure trivial

theorem ends_macAbsorb (he : e.strict = false) {npub ad c : Ptr} {adlen clen : Nat} (hn : Readable e npub 16)
    (ha : Readable e ad adlen) (hc : Readable e c clen) : Ends (macAbsorb D npub ad adlen c clen) e fun _ => True := by
  refine (Ends.load64 he (hn.add (by omega))).bind fun _ _ => (Ends.load64 he (hn.add (by omega))).bind fun _ _ => ?_
  refine ((ends_absorbLanes he ha).bind (Q := fun _ => True) fun _ _ => .pure trivial).bind fun _ _ => ?_
  exact (ends_absorbLanes he hc).bind fun _ _ => .pure trivial

theorem ends_isapMac (he : e.strict = false) {k npub ad c : Ptr} {adlen clen : Nat} (hk : Readable e k 16)
    (hn : Readable e npub 16) (ha : Readable e ad adlen) (hc : Readable e c clen) :
    Ends (isapMac D k npub ad adlen c clen) e fun t => t.length = 16 := by
  refine (ends_macAbsorb he hn ha hc).bind fun _ _ => ?_
  refine (ends_isapRk he hk (by simp [Src.Ok])).bind fun _ _ => .pure ?_
  simp

/-- `isap_enc` with a 32-bit `unsigned long` writes the last block, if it is not full, at its offset modulo `2^32`. -/
theorem ends_isapEnc (he : e.strict = false) (hd : D.dm = .llp64) {k npub m c : Ptr} {mlen n0 : Nat} (hk : Readable e k 16)
    (hn : Readable e npub 16) (hm : Readable e m mlen) (hc : Writable e c n0) (h0 : mlen - mlen % 8 ≤ n0)
    (h1 : mlen % 8 ≠ 0 → (mlen - mlen % 8) % 2 ^ 32 + mlen % 8 ≤ n0) : Ends (isapEnc D k npub m mlen c) e fun _ => True := by
  unfold isapEnc
  have hu : D.dm.ulong = 2 ^ 32 := by rw [hd]; rfl
  rw [hu]
  refine (ends_isapRk he hk (y := .ext npub) hn).bind fun _ _ => ?_
  refine (Ends.load64 he (hn.add (by omega))).bind fun _ _ => (Ends.load64 he (hn.add (by omega))).bind fun _ _ => ?_
  dsimp only
  rw [whileRem_eq]
  obtain ⟨hb1, hb2⟩ := remBlocks_le (r := 8) (by decide) mlen
  generalize remBlocks 8 mlen = n at *
  have hle : ∀ j, j % 2 ^ 32 ≤ j := fun j => Nat.mod_le _ _
  refine Ends.bind (P := fun _ => True) ?_ fun _ _ => .pure trivial
  refine (Ends.forN' fun j x hj => ?_).bind fun _ _ => ?_
  · have := hle j
    refine (Ends.load64 he (hm.add (by omega))).bind fun _ _ => ?_
    exact (Ends.store64 he (hc.add (by omega))).bind fun _ _ => .pure trivial
  · refine Ends.ite (fun h8 => ?_) (fun _ => ?_)
    · have := hle (0 + n)
      refine (Ends.load64 he (hm.add (by omega))).bind fun _ _ => ?_
      exact (Ends.store64 he (hc.add (by omega))).bind fun _ _ => .pure trivial
    · refine (Ends.forN' fun j x hj => ?_).bind fun _ _ => .pure trivial
      have := hle (8 * n)
      have h1 := h1 (by omega)
      rw [show mlen - mlen % 8 = 8 * n by omega] at h1
      simp only [Nat.zero_add, add_add]
      refine (Ends.load8 (hm _ (by omega))).bind fun _ _ => Ends.store8 (hc.add (by omega))

end A128.Opt64

namespace A128.Avx
open Opt64 (ends_isapRk ends_absorbLanes ends_padByte)

theorem ends_encbytes1 {rem : Int} (h0 : 0 < rem) (h1 : rem < 2 ^ 63) :
    Ends (encbytes1 rem) e fun n => n ≤ 8 ∧ (n : Int) ≤ rem ∧ (n < 8 → (n : Int) = rem) := by
  refine Ends.ite (fun h => .pure ⟨Nat.le_refl 8, h, fun h => absurd h (Nat.lt_irrefl 8)⟩) (fun h => .pure ?_)
  unfold u64
  omega

theorem ends_encbytes2 {rem : Int} {n1 : Nat} (h1 : rem < 2 ^ 63) (hn : n1 ≤ 8 ∧ (n1 : Int) ≤ rem ∧ (n1 < 8 → (n1 : Int) = rem)) :
    Ends (encbytes2 rem n1) e fun n => n ≤ 8 ∧ (rem > 16 → n1 + n = 16) := by
  have hu : u64 (rem - n1) = (rem - n1).toNat := by
    unfold u64
    rw [Int.emod_eq_of_lt (by omega) (by omega)]
  unfold encbytes2
  rw [hu]
  refine Ends.ite (fun h => .pure ⟨Nat.le_refl 8, fun _ => by omega⟩) (fun h => Ends.ite (fun h => .pure ?_) (fun h => .pure ?_))
  · omega
  · omega

theorem ends_loadMsg {p : Ptr} {n : Nat} (h : Readable e p n) : Ends (loadMsg p n) e fun _ => True :=
  Ends.forN' fun j _ hj => (Ends.load8 (h _ (by omega))).bind fun _ _ => .pure trivial

theorem ends_storeLane {c : Ptr} {x : BitVec 64} {n : Nat} (h : Writable e c n) (h8 : n ≤ 8) :
    Ends (storeLane c x n) e fun _ => True := by
  refine Ends.forN' fun j _ hj => (Ends.get (n := 8) ?_ (by omega)).bind fun _ _ => Ends.store8 (h.add (by omega))
  simp [Src.Ok]

/-- `idx8_mac` and `rem_mac_bytes` are such that only bytes of the ciphertext are read. -/
def MacIdx (idx : Nat) (rem : Int) : Prop := rem < 0 ∨ (idx % 8 = 0 ∧ idx < 2 ^ 32)

theorem u64_of_nonneg {rem : Int} (h0 : 0 ≤ rem) (h1 : rem < 2 ^ 63) : u64 rem = rem.toNat := by
  unfold u64
  rw [Int.emod_eq_of_lt h0 (by omega)]

theorem ends_macLane {c : Ptr} {idx : Nat} {rem : Int} (h0 : 0 ≤ rem) (h1 : rem < 2 ^ 63) (hi : MacIdx idx rem)
    (hc : Readable e c (2 ^ 32)) : Ends (macLane c idx rem) e fun _ => True := by
  unfold macLane
  rw [u64_of_nonneg h0 h1]
  refine Ends.forN' fun j _ hj => ?_
  refine Ends.ite (fun h => ?_) (fun _ => Ends.ite (fun _ => .pure trivial) (fun _ => .pure trivial))
  rw [add_add]
  refine (Ends.load8 (hc _ ?_)).bind fun _ _ => .pure trivial
  unfold MacIdx at hi
  omega

theorem nextIdx_ok {idx : Nat} {rem : Int} (h0 : 0 ≤ rem) (h1 : rem < 2 ^ 63) (hi : MacIdx idx rem) :
    MacIdx (nextIdx .llp64 idx rem) (rem - 8) := by
  unfold nextIdx
  rw [u64_of_nonneg h0 h1]
  show MacIdx ((idx + min 8 rem.toNat) % 2 ^ 32) _
  unfold MacIdx at *
  by_cases h : rem < 8
  · exact .inl (by omega)
  · right
    rw [Nat.min_eq_left (by omega)]
    omega

theorem ends_macInput {c : Ptr} {mlen idx : Nat} {rem remMac : Int} (h0 : 0 ≤ remMac) (h1 : remMac < 2 ^ 63)
    (hi : MacIdx idx remMac) (hc : Readable e c (2 ^ 32)) :
    Ends (macInput .llp64 c mlen rem idx remMac) e fun r => MacIdx r.2.1 r.2.2 ∧ r.2.2 ≤ remMac ∧ remMac - 8 ≤ r.2.2 :=
  Ends.ite (fun _ => (ends_macLane h0 h1 hi hc).bind fun _ _ => .pure ⟨nextIdx_ok h0 h1 hi, by dsimp only; omega, Int.le_refl _⟩)
    (fun _ => .pure ⟨hi, Int.le_refl _, by dsimp only; omega⟩)

/-- The invariant of the first loop. -/
structure BodyInv (rem : Int) (v : Loc) : Prop where
  enc : v.idxEnc % 16 = 0 ∧ v.idxEnc < 2 ^ 32
  mac : MacIdx v.idxMac v.remMac
  lag : rem ≤ v.remMac
  lt : v.remMac < 2 ^ 63

theorem ends_body {m c : Ptr} {mlen : Nat} {rem : Int} {v : Loc} (h0 : 0 < rem) (hr : rem < 2 ^ 63) (hv : BodyInv rem v)
    (hm : Readable e m (2 ^ 32)) (hc : Writable e c (2 ^ 32)) :
    Ends (body .llp64 m c mlen rem v) e fun v' => (rem > 16 → BodyInv (rem - 16) v') ∧ MacIdx v'.idxMac v'.remMac ∧
      v'.remMac < 2 ^ 63 := by
  have h1 := hv.enc
  have h2 := hv.lag
  have h3 := hv.lt
  unfold body
  refine (ends_encbytes1 h0 hr).bind fun n1 hn1 => (ends_encbytes2 hr hn1).bind fun n2 hn2 => ?_
  refine (ends_loadMsg (hm.add (by omega))).bind fun _ _ => (ends_loadMsg (hm.add (by omega))).bind fun _ _ => ?_
  refine (ends_macInput (by omega) hv.lt hv.mac hc.readable).bind fun r h => ?_
  obtain ⟨w, idx, rm⟩ := r
  dsimp only at h
  refine (ends_storeLane (hc.add (by omega)) hn1.1).bind fun _ _ => (ends_storeLane (hc.add (by omega)) hn2.1).bind fun _ _ => ?_
  refine .pure ⟨fun h16 => ⟨?_, h.1, ?_, ?_⟩, h.1, ?_⟩
  · show (v.idxEnc + n1 + n2) % 2 ^ 32 % 16 = 0 ∧ (v.idxEnc + n1 + n2) % 2 ^ 32 < 2 ^ 32
    have := hn2.2 h16
    omega
  all_goals
    dsimp only
    omega

theorem ends_doWhile {m c : Ptr} {mlen : Nat} (hm : Readable e m (2 ^ 32)) (hc : Writable e c (2 ^ 32)) (n : Nat) :
    ∀ (rem : Int) (v : Loc), rem.toNat ≤ n → 0 < rem → rem < 2 ^ 63 → BodyInv rem v →
      Ends (doWhile (body .llp64 m c mlen) rem v) e fun v' => MacIdx v'.idxMac v'.remMac ∧ v'.remMac < 2 ^ 63 := by
  induction n with
  | zero => intro rem v hn h0; omega
  | succ n ih =>
    intro rem v hn h0 hr hv
    rw [doWhile]
    refine (ends_body h0 hr hv hm hc).bind fun v' hv' => ?_
    split
    · rename_i h16
      exact (Ends.branch _).bind fun _ _ => ih _ _ (by omega) (by omega) (by omega) (hv'.1 (by omega))
    · exact (Ends.branch _).bind fun _ _ => .pure hv'.2

theorem ends_macRest {c : Ptr} (hc : Readable e c (2 ^ 32)) (n : Nat) : ∀ (rem : Int) (idx : Nat) (x : Opt.State),
    (rem + 8).toNat ≤ n → rem < 2 ^ 63 → MacIdx idx rem → Ends (macRest .llp64 c rem idx x) e fun _ => True := by
  induction n with
  | zero =>
    intro rem idx x hn _ _
    rw [macRest, if_neg (by omega)]
    exact (Ends.branch _).bind fun _ _ => .pure trivial
  | succ n ih =>
    intro rem idx x hn hr hi
    rw [macRest]
    split
    · rename_i h0
      refine (Ends.branch _).bind fun _ _ => (ends_macLane h0 hr hi hc).bind fun _ _ => ?_
      exact ih _ _ _ (by omega) (by omega) (nextIdx_ok h0 hr hi)
    · exact (Ends.branch _).bind fun _ _ => .pure trivial

/-- `isap_mac_enc` with a 32-bit `unsigned long`, for a message of more than `2^32` bytes: it accesses only the first `2^32` bytes
of the message and of the ciphertext. -/
theorem ends_isapMacEnc (he : e.strict = false) {k npub ad m c : Ptr} {adlen mlen : Nat} (hk : Readable e k 16)
    (hn : Readable e npub 16) (ha : Readable e ad adlen) (hm : Readable e m (2 ^ 32)) (hc : Writable e c (2 ^ 32))
    (h1 : 2 ^ 32 < mlen) (h2 : mlen < 2 ^ 63) :
    Ends (isapMacEnc .llp64 k npub ad adlen c m mlen) e fun t => t.length = 16 := by
  unfold isapMacEnc start
  simp only [bind_assoc']
  refine (ends_isapRk he hk (y := .ext npub) hn).bind fun _ _ => ?_
  refine (Ends.load64 he (hn.add (by omega))).bind fun _ _ => (Ends.load64 he (hn.add (by omega))).bind fun _ _ => ?_
  refine (Ends.load64 he (hn.add (by omega))).bind fun _ _ => (Ends.load64 he (hn.add (by omega))).bind fun _ _ => ?_
  refine (ends_absorbLanes he ha).bind fun _ _ => (Ends.pure trivial).bind (P := fun _ => True) fun _ _ => ?_
  have hi : i64 mlen = mlen := by rw [i64, if_pos h2]
  rw [hi]
  have inv : ∀ x : Two, BodyInv mlen ⟨x, 0, 0, mlen, 1⟩ := by
    intro x
    refine ⟨⟨rfl, Nat.two_pow_pos 32⟩, .inr ⟨rfl, Nat.two_pow_pos 32⟩, ?_, ?_⟩
    · exact Int.le_refl _
    · dsimp only
      omega
  refine (ends_doWhile hm hc mlen mlen _ (by omega) (by omega) (by omega) (inv _)).bind fun v hv => ?_
  refine (ends_macRest hc.readable _ _ _ _ (Nat.le_refl _) hv.2 hv.1).bind fun _ _ => ?_
  refine (ends_isapRk he hk (by simp [Src.Ok])).bind fun _ _ => .pure ?_
  simp

end A128.Avx

end Model
