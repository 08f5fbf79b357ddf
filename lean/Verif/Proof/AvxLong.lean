import Verif.Proof.Llp64
import Verif.Proof.Bounds
/-!
# Messages of `2^63` bytes and more in `isapa128av20/avx_512`

`rem_enc_bytes` (line 425) is then negative, so that `encbytes1` (line 441) is the whole length.
-/

namespace C

/-- `f` ends with the undefined behaviour `u` from every memory. -/
def Fails (f : CM α) (e : Env) (u : UB) : Prop := ∀ s, run f e s = .ub u

variable {e : Env} {u : UB}

theorem Fails.bind {f : CM α} {g : α → CM β} (h : Fails f e u) : Fails (f >>= g) e u := by
  intro s
  rw [run_bind, h s]
  rfl

theorem Ends.fails {f : CM α} {g : α → CM β} {P : α → Prop} (hf : Ends f e P) (hg : ∀ a, P a → Fails (g a) e u) :
    Fails (f >>= g) e u := by
  intro s
  obtain ⟨a, s', ⟨tr, h⟩, ha⟩ := hf s
  rw [run_bind, h]
  show Out.andThen (.ok a s' tr) _ = _
  unfold Out.andThen
  dsimp only
  rw [hg a ha s']

theorem Fails.ub : Fails (C.ub u : CM α) e u := fun _ => rfl

/-- A loop fails if an iteration does and those before end. -/
theorem Fails.forN {σ : Type} {f : Nat → σ → CM σ} (m : Nat) : ∀ (n i : Nat) (x : σ), m < n →
    (∀ j x, i ≤ j → j < i + m → Ends (f j x) e fun _ => True) → (∀ x, Fails (f (i + m) x) e u) → Fails (C.forN n i f x) e u := by
  induction m with
  | zero =>
    intro n i x hn _ hf
    match n, hn with
    | n + 1, _ => exact (Ends.branch _).fails fun _ _ => (hf x).bind
  | succ m ih =>
    intro n i x hn h hf
    match n, hn with
    | n + 1, hn =>
      refine (Ends.branch _).fails fun _ _ => (h i x (Nat.le_refl _) (by omega)).fails fun y _ => ?_
      refine ih n (i + 1) y (by omega) (fun j z h1 h2 => h j z (by omega) (by omega)) fun z => ?_
      rw [show i + 1 + m = i + (m + 1) by omega]
      exact hf z

theorem Ends.of_chk {f g : CM α} {P : α → Prop} (H : Chk Eq f g) (h : Ends g e P) : Ends f e P := by
  intro s
  obtain ⟨a, s', ⟨tr, hr⟩, ha⟩ := h s
  exact ⟨a, s', ⟨tr, (H.runEq e s).1.trans hr⟩, ha⟩

end C

namespace Model.A128.Avx
open C
open Opt64 (ends_isapRk ends_absorbLanes)

variable {e : Env}

theorem ends_start (he : e.strict = false) {d : DataModel} {k npub ad : Ptr} {adlen : Nat} (hk : Readable e k 16)
    (hn : Readable e npub 16) (ha : Readable e ad adlen) : Ends (start d k npub ad adlen) e fun _ => True := by
  unfold start
  refine (ends_isapRk he hk (y := .ext npub) hn).bind fun _ _ => ?_
  refine (Ends.load64 he (hn.add (by omega))).bind fun _ _ => (Ends.load64 he (hn.add (by omega))).bind fun _ _ => ?_
  refine (Ends.load64 he (hn.add (by omega))).bind fun _ _ => (Ends.load64 he (hn.add (by omega))).bind fun _ _ => ?_
  exact (ends_absorbLanes he ha).bind fun _ _ => Ends.pure trivial

/-- Lines 487-491 read `lane8[8]`, which is outside of `tmpc1`. -/
theorem fails_storeLane {c : Ptr} {x : BitVec 64} {n : Nat} (h : Writable e c n) (h8 : 8 < n) :
    Fails (storeLane c x n) e .localOob := by
  refine Fails.forN 8 n 0 () h8 (fun j _ _ hj => ?_) fun _ => ?_
  · refine (Ends.get (n := 8) (by simp [Src.Ok]) (by omega)).bind fun _ _ => Ends.store8 (h.add (by omega))
  · refine Fails.bind ?_
    unfold Src.get
    simp only [Nat.zero_add, length_toLe64, Nat.lt_irrefl, if_false]
    exact Fails.ub

theorem i64_huge {n : Nat} (h : 2 ^ 63 ≤ n) : i64 n = (n : Int) - 2 ^ 64 := by rw [i64, if_neg (by omega)]

theorem u64_huge {n : Nat} (h : n < 2 ^ 64) : u64 ((n : Int) - 2 ^ 64) = n := by
  unfold u64
  omega

theorem ends_encbytes1_huge {n : Nat} (h : n < 2 ^ 64) : Ends (encbytes1 ((n : Int) - 2 ^ 64)) e (· = n) := by
  refine Ends.ite (fun h => ?_) (fun _ => .pure (u64_huge h))
  omega

theorem ends_encbytes2_huge {n : Nat} (h8 : 8 ≤ n) : Ends (encbytes2 ((n : Int) - 2 ^ 64) n) e (· = 0) := by
  have hu : u64 ((n : Int) - 2 ^ 64 - n) = 0 := by unfold u64; omega
  unfold encbytes2
  rw [hu]
  exact Ends.ite (fun h => absurd h (by decide)) (fun _ => Ends.ite (fun h => by omega) (fun _ => .pure rfl))

theorem ends_macInput_huge {d : DataModel} {c : Ptr} {n idx : Nat} {remMac : Int} (h : n < 2 ^ 64) :
    Ends (macInput d c n ((n : Int) - 2 ^ 64) idx remMac) e fun _ => True := by
  unfold macInput
  rw [u64_huge h]
  exact Ends.ite (fun h => absurd h (Nat.lt_irrefl _)) (fun _ => .pure trivial)

theorem fails_body {d : DataModel} {m c : Ptr} {n : Nat} {v : Loc} (hv : v.idxEnc = 0) (h0 : 8 < n) (h : n < 2 ^ 64)
    (hm : Readable e m n) (hc : Writable e c n) : Fails (body d m c n ((n : Int) - 2 ^ 64) v) e .localOob := by
  unfold body
  refine (ends_encbytes1_huge h).fails fun _ h1 => ?_
  rw [h1, hv]
  refine (ends_encbytes2_huge (by omega)).fails fun _ h2 => ?_
  rw [h2]
  refine (ends_loadMsg (hm.add (by omega))).fails fun _ _ => (ends_loadMsg (hm.add (by omega))).fails fun _ _ => ?_
  refine (ends_macInput_huge h).fails fun r _ => ?_
  obtain ⟨w, idx, rm⟩ := r
  exact (fails_storeLane (hc.add (by omega)) h0).bind

/-- `isap_mac_enc` for a message of `2^63` bytes or more reads beyond `tmpc1`. -/
theorem fails_isapMacEnc (he : e.strict = false) {d : DataModel} {k npub ad m c : Ptr} {adlen mlen : Nat} (hk : Readable e k 16)
    (hn : Readable e npub 16) (ha : Readable e ad adlen) (hm : Readable e m mlen) (hc : Writable e c mlen) (h1 : 2 ^ 63 ≤ mlen)
    (h2 : mlen < 2 ^ 64) : Fails (isapMacEnc d k npub ad adlen c m mlen) e .localOob := by
  unfold isapMacEnc
  refine (ends_start he hk hn ha).fails fun x _ => Fails.bind ?_
  rw [i64_huge h1, doWhile]
  exact (fails_body rfl (by omega) h2 hm hc).bind

/-! The same of the version with arrays of the declared sizes. -/

theorem Chk.fails_storeLane {c : Ptr} {x : BitVec 64} {n : Nat} (h : Writable e c n) (h8 : 8 < n) :
    Fails (Chk.storeLane c x n) e .localOob := by
  refine Fails.forN 8 n 0 () h8 (fun j _ _ hj => ?_) fun _ => Fails.bind fun s => ?_
  · intro s
    have h1 : j < 8 := by omega
    have : (Arr.of (toLe64 x))[j]? = some (some ((toLe64 x).getD j 0)) := by
      simp [Arr.of, h1]
    unfold aget
    rw [this]
    exact Ends.store8 (h.add (by omega)) s
  · have : (Arr.of (toLe64 x))[0 + 8]? = none := by simp [Arr.of]
    unfold aget
    rw [this]
    rfl

theorem Chk.fails_body {d : DataModel} {m c : Ptr} {n : Nat} {v : Loc} (hv : v.idxEnc = 0) (h0 : 8 < n) (h : n < 2 ^ 64)
    (hm : Readable e m n) (hc : Writable e c n) : Fails (Chk.body d m c n ((n : Int) - 2 ^ 64) v) e .localOob := by
  unfold Chk.body
  refine (ends_encbytes1_huge h).fails fun _ h1 => ?_
  rw [h1, hv]
  refine (ends_encbytes2_huge (by omega)).fails fun _ h2 => ?_
  rw [h2]
  refine (ends_loadMsg (hm.add (by omega))).fails fun _ _ => (ends_loadMsg (hm.add (by omega))).fails fun _ _ => ?_
  refine ((ends_macInput_huge h).of_chk (Chk.macInput_chk ..)).fails fun r _ => ?_
  obtain ⟨w, idx, rm⟩ := r
  exact (Chk.fails_storeLane (hc.add (by omega)) h0).bind

theorem Chk.fails_isapMacEnc (he : e.strict = false) {d : DataModel} {k npub ad m c : Ptr} {adlen mlen : Nat} (hk : Readable e k 16)
    (hn : Readable e npub 16) (ha : Readable e ad adlen) (hm : Readable e m mlen) (hc : Writable e c mlen) (h1 : 2 ^ 63 ≤ mlen)
    (h2 : mlen < 2 ^ 64) : Fails (Chk.isapMacEnc d k npub ad adlen c m mlen) e .localOob := by
  unfold Chk.isapMacEnc
  refine ((ends_start he hk hn ha).of_chk (Chk.start_chk ..)).fails fun x _ => Fails.bind ?_
  rw [i64_huge h1, doWhile]
  exact (Chk.fails_body rfl (by omega) h2 hm hc).bind

end Model.A128.Avx
