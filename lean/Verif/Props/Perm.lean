import Verif.Proof.Perms
import Verif.Proof.Hash
/-!
# The permutations (C22, C23, C29, C30)

`t.perms` (`Model/Perms.lean`) lists the permutations in the code of implementation `t` with the numbers of rounds they
are meant to have, as functions on the bytes of the state.
-/

namespace Props
open C Model Spec

/-- Implementations with the Ascon permutation; all others use Keccak-p[400]. -/
def usesAscon (t : Target) : Prop := t.set = .a128a ∨ t.set = .a128

/-! ## Which permutations there are -/

/-- Every implementation has permutations with all four numbers of rounds of its parameter set. -/
theorem C29_rounds_present (t : Target) (n : Nat) (h : n ∈ [t.set.spec.sH, t.set.spec.sB, t.set.spec.sE, t.set.spec.sK]) :
    ∃ f, (n, f) ∈ t.perms := by
  have key : n ∈ t.perms.map Prod.fst := by
    cases t with
    | ref P => cases P <;> revert n <;> exact (by decide)
    | x P => cases P <;> revert n <;> exact (by decide)
    | a128aAvx512 d => cases d <;> revert n <;> exact (by decide)
    | a128Opt64 d => cases d <;> revert n <;> exact (by decide)
    | k128aAvx512 j => revert n; exact (by decide : ∀ n ∈ [16, 1, 8, 8], n ∈ [16, 1, 8, 8, 1, 8])
    | _ => revert n; exact (by decide)
  obtain ⟨⟨m, f⟩, hm, rfl⟩ := List.mem_map.1 key
  exact ⟨f, hm⟩

/-! ## C22 -/

/-- **C22**: the Ascon permutation of every implementation but bi_32_armv7m is the one of the specification, on all 40-byte states,
for each number of rounds. -/
theorem C22_spec_partial (t : Target) (ha : usesAscon t) (hc : t.conforming = true) (n : Nat) (f : List Byte → CM (List Byte))
    (h : (n, f) ∈ t.perms) (B : List Byte) (hB : B.length = 40) (e : Env) (s : St) : Runs (f B) e s (Ascon.perm n B) s := by
  have hn : t.set.spec.n = 40 := by rcases ha with ha | ha <;> rw [ha] <;> rfl
  have hp : t.set.spec.perm = Ascon.perm := by rcases ha with ha | ha <;> rw [ha] <;> rfl
  rw [← hp]
  exact t.runs_perms hc h (by rw [hB, hn])

/-- The specified permutation is a bijection of the 40-byte strings, for every number of rounds. -/
theorem C22_bijection (n : Nat) : BijOn 40 (Ascon.perm n) := bijOn_ascon (Ascon.p_bijective n)

/-- **C22**: what an implementation (all of them, including bi_32_armv7m) computes is a bijection on the 40-byte states. -/
theorem C22_code_bijection (t : Target) (ha : usesAscon t) (n : Nat) (f : List Byte → CM (List Byte)) (h : (n, f) ∈ t.perms) :
    ∃ F, BijOn 40 F ∧ ∀ (B : List Byte) (e : Env) (s : St), B.length = 40 → Runs (f B) e s (F B) s := by
  by_cases hc : t.conforming = true
  · exact ⟨_, C22_bijection n, fun B e s hB => C22_spec_partial t ha hc n f h B hB e s⟩
  · have ht : t = .a128aBi32Armv7m := by cases t <;> first | rfl | exact absurd rfl hc
    subst ht
    refine ⟨_, bijOn_ascon ?_, fun B e s hB => RepOK.perms Opt.Armv7m.repOK h hB⟩
    obtain ⟨g, hg⟩ := Armv7m_inverse (12 - n) n
    exact hg.bijective

/-- The full statement of the first theorem is false of bi_32_armv7m: already one round (the permutation between the bits of
the nonce) differs on the all-zero state. -/
theorem C22_armv7m_differs : ∃ f, (1, f) ∈ Target.perms .a128aBi32Armv7m ∧
    ∀ (e : Env) (s : St), ¬ Runs (f (List.replicate 40 0)) e s (Ascon.perm 1 (List.replicate 40 0)) s := by
  refine ⟨_, .tail _ (.head _), fun e s h => ?_⟩
  have h' := RepOK.perms (e := e) (s := s) Opt.Armv7m.repOK (n := 1) (.tail _ (.head _)) (B := List.replicate 40 0) rfl
  have := (h.det h').1
  revert this
  decide +kernel

/-! ## C23 -/

/-- **C23**: the permutation of every ISAP-K implementation is the specified Keccak-p[400] permutation, on all 50-byte states. -/
theorem C23_spec (t : Target) (hk : ¬ usesAscon t) (n : Nat) (f : List Byte → CM (List Byte)) (h : (n, f) ∈ t.perms)
    (B : List Byte) (hB : B.length = 50) (e : Env) (s : St) : Runs (f B) e s (Keccak.perm n B) s := by
  have hs : t.set = .k128a ∨ t.set = .k128 := by
    unfold usesAscon at hk
    generalize t.set = P at hk
    cases P <;> simp_all
  have hn : t.set.spec.n = 50 := by rcases hs with hs | hs <;> rw [hs] <;> rfl
  have hp : t.set.spec.perm = Keccak.perm := by rcases hs with hs | hs <;> rw [hs] <;> rfl
  have hc : t.conforming = true := by
    cases t <;> first | rfl | exact absurd (Or.inl rfl) hk
  rw [← hp]
  exact t.runs_perms hc h (by rw [hB, hn])

/-- **C23**: it is a bijection, for every number of rounds. -/
theorem C23_bijection (n : Nat) : BijOn 50 (Keccak.perm n) := Keccak.bijOn (Keccak.p_bijective n)

/-- The reference code has all numbers of rounds up to 20. -/
theorem C23_ref_rounds (P : ParamSet) (hP : P = .k128a ∨ P = .k128) (n : Nat) (hn : n ≤ 20) :
    (n, fun B => KeccakRef.permute B n) ∈ Target.perms (.ref P) := by
  have : (n, fun B => KeccakRef.permute B n) ∈ (List.range 21).map fun n => (n, fun B => KeccakRef.permute B n) :=
    List.mem_map.2 ⟨n, List.mem_range.2 (by omega), rfl⟩
  rcases hP with rfl | rfl <;> exact this

/-- The reference code of the Ascon permutation has all numbers of rounds up to 12. -/
theorem C22_ref_rounds (P : ParamSet) (hP : P = .a128a ∨ P = .a128) (n : Nat) (hn : n ≤ 12) :
    (n, fun B => AsconRef.permute B n) ∈ Target.perms (.ref P) := by
  have : (n, fun B => AsconRef.permute B n) ∈ (List.range 13).map fun n => (n, fun B => AsconRef.permute B n) :=
    List.mem_map.2 ⟨n, List.mem_range.2 (by omega), rfl⟩
  rcases hP with rfl | rfl <;> exact this

/-! ## C29 -/

/-- The rounds `i`, ..., `i + n - 1` one after the other. -/
def asconRounds (i n : Nat) (S : Ascon.State) : Ascon.State := (List.range' i n).foldl (fun S j => Ascon.round j S) S
def keccakRounds (i n : Nat) (A : Keccak.State) : Keccak.State := (List.range' i n).foldl (fun A j => Keccak.round j A) A

theorem ascon_rounds_eq (i n : Nat) (S : Ascon.State) : Ascon.rounds i n S = asconRounds i n S := by
  induction n generalizing i S with
  | zero => rfl
  | succ n ih => rw [Ascon.rounds, ih]; simp only [asconRounds, List.range'_succ, List.foldl_cons]

theorem keccak_rounds_eq (i n : Nat) (A : Keccak.State) : Keccak.rounds i n A = keccakRounds i n A := by
  induction n generalizing i A with
  | zero => rfl
  | succ n ih => rw [Keccak.rounds, ih]; simp only [keccakRounds, List.range'_succ, List.foldl_cons]

/-- **C29**, Ascon: however its loop is coded, an `n`-round permutation terminates and runs the last `n` of the twelve rounds. -/
theorem C29_ascon_partial (t : Target) (ha : usesAscon t) (hc : t.conforming = true) (n : Nat) (f : List Byte → CM (List Byte))
    (h : (n, f) ∈ t.perms) (S : Ascon.State) (e : Env) (s : St) :
    Runs (f (Ascon.toBytes S)) e s (Ascon.toBytes (asconRounds (12 - n) n S)) s := by
  have := C22_spec_partial t ha hc n f h (Ascon.toBytes S) (by simp) e s
  rwa [Ascon.perm_toBytes, Ascon.p, ascon_rounds_eq] at this

/-- **C29**, Keccak: the last `n` of the twenty rounds. -/
theorem C29_keccak (t : Target) (hk : ¬ usesAscon t) (n : Nat) (f : List Byte → CM (List Byte))
    (h : (n, f) ∈ t.perms) (A : Keccak.State) (e : Env) (s : St) :
    Runs (f (Keccak.toBytes A)) e s (Keccak.toBytes (keccakRounds (20 - n) n A)) s := by
  have := C23_spec t hk n f h (Keccak.toBytes A) (Keccak.length_toBytes _) e s
  rwa [Keccak.perm, Keccak.ofBytes_toBytes, Keccak.p, keccak_rounds_eq] at this

/-- The permutations with fewer rounds are the ends of the longest one. -/
theorem C29_ascon_suffix (n : Nat) (hn : n ≤ 12) (S : Ascon.State) :
    asconRounds 0 12 S = asconRounds (12 - n) n (asconRounds 0 (12 - n) S) := by
  unfold asconRounds
  have := @List.range'_append 0 (12 - n) n 1
  rw [← List.foldl_append, Nat.one_mul, Nat.zero_add] at *
  rw [this, show 12 - n + n = 12 by omega]

theorem C29_keccak_suffix (n : Nat) (hn : n ≤ 20) (A : Keccak.State) :
    keccakRounds 0 20 A = keccakRounds (20 - n) n (keccakRounds 0 (20 - n) A) := by
  unfold keccakRounds
  have := @List.range'_append 0 (20 - n) n 1
  rw [← List.foldl_append, Nat.one_mul, Nat.zero_add] at *
  rw [this, show 20 - n + n = 20 by omega]

/-- The AVX-512 code of ISAP-A-128a runs two permutations at once, in the two 64-bit lanes of its registers: six rounds of the
encryption twice, and twelve rounds of the authentication meanwhile; the encryption's lane may change in between. -/
theorem C29_avx_two_lanes (x : A128.Avx.Two) (lo : Ascon.State) :
    (A128.Avx.p6first x).lo = asconRounds 6 6 x.lo ∧
    (A128.Avx.p6second ⟨lo, (A128.Avx.p6first x).hi⟩).lo = asconRounds 6 6 lo ∧
    (A128.Avx.p6second ⟨lo, (A128.Avx.p6first x).hi⟩).hi = asconRounds 0 12 x.hi := by
  refine ⟨?_, ?_, ?_⟩
  · rw [A128.Avx.p6first_lo, Ascon.p, ascon_rounds_eq]
  · rw [A128.Avx.p6second_lo, Ascon.p, ascon_rounds_eq]
  · rw [A128.Avx.p6_hi x ⟨lo, _⟩ rfl, Ascon.p, ascon_rounds_eq]

/-! ## C30 -/

/-- Conversion of lanes, `U64TOWORD` and `WORDTOU64`: for `isapa128v20` and avx_512 the same macros without these names. -/
def laneCode : Target → Option ((BitVec 64 → BitVec 64) × (BitVec 64 → BitVec 64))
  | .a128Opt64 _ | .a128aAvx512 _ => some (A128.Opt64.u64big, A128.Opt64.u64big)
  | .a128Opt32 | .a128Opt32Armv67m => some (A128.Opt32.toWord, A128.Opt32.fromWord)
  | t => t.hashPrims.map fun D => (D.toWord, D.fromWord)

theorem laneCode_spec {t : Target} {to from' : BitVec 64 → BitVec 64} (h : laneCode t = some (to, from')) :
    ∃ φ : BitVec 64 → BitVec 64, (∀ B, B.length = 8 → to (le64 B) = φ (ofBe64 B)) ∧ (∀ w, toLe64 (from' (φ w)) = be64 w) ∧
      ∀ a b, φ (a ^^^ b) = φ a ^^^ φ b := by
  have hd : ∀ D, t.hashPrims = some D → to = D.toWord ∧ from' = D.fromWord →
      ∃ φ : BitVec 64 → BitVec 64, (∀ B, B.length = 8 → to (le64 B) = φ (ofBe64 B)) ∧ (∀ w, toLe64 (from' (φ w)) = be64 w) ∧
      ∀ a b, φ (a ^^^ b) = φ a ^^^ φ b := by
    rintro D hD ⟨rfl, rfl⟩
    obtain ⟨φ, O⟩ := Target.repOK_hash hD
    exact ⟨φ, O.toWord, O.fromWord, O.xor⟩
  have hg : ∀ t' : Target, t'.hashPrims = t.hashPrims → (t'.hashPrims.map fun D => (D.toWord, D.fromWord)) = some (to, from') →
      ∃ D, t.hashPrims = some D ∧ to = D.toWord ∧ from' = D.fromWord := by
    intro t' h1 h2
    rw [h1] at h2
    obtain ⟨D, hD, he⟩ := Option.map_eq_some_iff.1 h2
    cases he
    exact ⟨D, hD, rfl, rfl⟩
  have h64 : ∃ φ : BitVec 64 → BitVec 64, (∀ B, B.length = 8 → A128.Opt64.u64big (le64 B) = φ (ofBe64 B)) ∧
      (∀ w, toLe64 (A128.Opt64.u64big (φ w)) = be64 w) ∧ ∀ a b, φ (a ^^^ b) = φ a ^^^ φ b :=
    ⟨id, fun B _ => A128.Opt64.u64big_le64 B, A128.Opt64.toLe64_u64big, fun _ _ => rfl⟩
  have h32 : ∃ φ : BitVec 64 → BitVec 64, (∀ B, B.length = 8 → A128.Opt32.toWord (le64 B) = φ (ofBe64 B)) ∧
      (∀ w, toLe64 (A128.Opt32.fromWord (φ w)) = be64 w) ∧ ∀ a b, φ (a ^^^ b) = φ a ^^^ φ b :=
    ⟨_, fun B => A128.Opt32.toWord_le64, A128.Opt32.toLe64_fromWord, A128.Opt32.φ_xor⟩
  have hr : ∀ t' : Target, t'.hashPrims = t.hashPrims → (t'.hashPrims.map fun D => (D.toWord, D.fromWord)) = some (to, from') →
      ∃ φ : BitVec 64 → BitVec 64, (∀ B, B.length = 8 → to (le64 B) = φ (ofBe64 B)) ∧ (∀ w, toLe64 (from' (φ w)) = be64 w) ∧
      ∀ a b, φ (a ^^^ b) = φ a ^^^ φ b := fun t' h1 h2 => (hg t' h1 h2).elim fun D h => hd D h.1 h.2
  cases t with
  | a128Opt64 _ => cases h; exact h64
  | a128aAvx512 _ => cases h; exact h64
  | a128Opt32 => cases h; exact h32
  | a128Opt32Armv67m => cases h; exact h32
  | _ => exact hr _ rfl h

/-- **C30**: the conversions between bytes and the representation of lanes are inverse to each other. -/
theorem C30_roundtrip (t : Target) (to from' : BitVec 64 → BitVec 64) (h : laneCode t = some (to, from')) (w : BitVec 64) :
    from' (to w) = w ∧ to (from' w) = w := by
  obtain ⟨φ, hto, hfrom, _⟩ := laneCode_spec h
  have h1 : ∀ w, from' (to w) = w := by
    intro w
    have h8 : (toLe64 w).length = 8 := rfl
    have := hto (toLe64 w) h8
    rw [le64_toLe64] at this
    rw [this]
    apply toLe64_inj
    rw [hfrom, be64_ofBe64 _ (by omega), List.take_of_length_le (by omega)]
  refine ⟨h1 w, ?_⟩
  obtain ⟨v, hv⟩ := (bijective_of_inj to fun x y hxy => by rw [← h1 x, hxy, h1 y]).2 w
  rw [← hv, h1]

/-- **C30**: the XOR of two lanes is the XOR of their representations. -/
theorem C30_xor (t : Target) (to from' : BitVec 64 → BitVec 64) (h : laneCode t = some (to, from')) (v w : BitVec 64) :
    to (v ^^^ w) = to v ^^^ to w := by
  obtain ⟨φ, hto, _, hx⟩ := laneCode_spec h
  have e : ∀ w, to w = φ (ofBe64 (toLe64 w)) := fun w => by
    have := hto (toLe64 w) rfl
    rwa [le64_toLe64] at this
  rw [e, e, e, ← hx]
  congr 1
  apply BitVec.eq_of_getLsbD_eq
  intro i hi
  rw [BitVec.getLsbD_xor]
  simp only [getLsbD_ofBe64 _ hi, getD_toLe64 _ (show 7 - i / 8 < 8 by omega)]
  simp [show i % 8 < 8 by omega]

/-- **C30**, 32-bit interleaving (bi_32): the conversion functions are inverse to each other. -/
theorem C30_bi32_inverse (w : BitVec 64) : Opt.Bi32.fromBI (Opt.Bi32.toBI w) = w ∧ Opt.Bi32.toBI (Opt.Bi32.fromBI w) = w := by
  have h1 : ∀ w, Opt.Bi32.fromBI (Opt.Bi32.toBI w) = w := fun w => by rw [Opt.Bi32.toBI_eq, Opt.Bi32.fromBI_φ]
  refine ⟨h1 w, ?_⟩
  obtain ⟨v, hv⟩ := (bijective_of_inj Opt.Bi32.toBI fun x y hxy => by rw [← h1 x, hxy, h1 y]).2 w
  rw [← hv, h1]

/-- **C30**, 32-bit interleaving: even bits go to the low word, odd bits to the high word. -/
theorem C30_bi32_bits (w : BitVec 64) (i : Nat) (hi : i < 32) :
    (Opt.Bi32.toBI w).getLsbD i = w.getLsbD (2 * i) ∧ (Opt.Bi32.toBI w).getLsbD (32 + i) = w.getLsbD (2 * i + 1) := by
  rw [Opt.Bi32.toBI_eq, Opt.Bi32.φ, Bits.getLsbD_perm _ _ (by omega), Bits.getLsbD_perm _ _ (by omega), if_pos hi,
    if_neg (by omega), Nat.add_sub_cancel_left]
  exact ⟨rfl, rfl⟩

/-- **C30**, 32-bit interleaving: the coded operations are the operations on lanes; the code rotates by at most 39. -/
theorem C30_bi32_ops (v w : BitVec 64) (n : Nat) (hn : n ≤ 39) :
    Opt.Bi32.ror (Opt.Bi32.toBI w) n = Opt.Bi32.toBI (w.rotateRight n) ∧
    Opt.Bi32.toBI v ^^^ Opt.Bi32.toBI w = Opt.Bi32.toBI (v ^^^ w) ∧
    Opt.Bi32.toBI v &&& Opt.Bi32.toBI w = Opt.Bi32.toBI (v &&& w) ∧ ~~~ Opt.Bi32.toBI w = Opt.Bi32.toBI (~~~ w) := by
  simp only [Opt.Bi32.toBI_eq]
  exact ⟨Opt.Bi32.bitRep.ror w n hn, (Opt.Bi32.bitRep.xor v w).symm, (Opt.Bi32.bitRep.and v w).symm, (Opt.Bi32.bitRep.not w).symm⟩

/-- **C30**, 8-bit interleaving (bi_8): the conversion is its own inverse. -/
theorem C30_bi8_inverse (w : BitVec 64) : Opt.Bi8.interleave8 (Opt.Bi8.interleave8 w) = w := by
  rw [Opt.Bi8.interleave8_eq, Opt.Bi8.interleave8_eq, Opt.Bi8.φ_φ]

/-- **C30**, 8-bit interleaving: bit `8 j + i` of a lane goes to bit `j` of byte `i`. -/
theorem C30_bi8_bits (w : BitVec 64) (i j : Nat) (hi : i < 8) (hj : j < 8) :
    (Opt.Bi8.interleave8 w).getLsbD (8 * i + j) = w.getLsbD (8 * j + i) := by
  rw [Opt.Bi8.interleave8_eq, Opt.Bi8.φ, Bits.getLsbD_perm _ _ (by omega)]
  congr 1
  omega

/-- **C30**, 8-bit interleaving: the coded operations are the operations on lanes. -/
theorem C30_bi8_ops (v w : BitVec 64) (n : Nat) (hn : n ≤ 39) :
    Opt.Bi8.ror (Opt.Bi8.interleave8 w) n = Opt.Bi8.interleave8 (w.rotateRight n) ∧
    Opt.Bi8.interleave8 v ^^^ Opt.Bi8.interleave8 w = Opt.Bi8.interleave8 (v ^^^ w) ∧
    Opt.Bi8.interleave8 v &&& Opt.Bi8.interleave8 w = Opt.Bi8.interleave8 (v &&& w) ∧
    ~~~ Opt.Bi8.interleave8 w = Opt.Bi8.interleave8 (~~~ w) := by
  simp only [Opt.Bi8.interleave8_eq]
  exact ⟨Opt.Bi8.bitRep.ror w n hn, (Opt.Bi8.bitRep.xor v w).symm, (Opt.Bi8.bitRep.and v w).symm, (Opt.Bi8.bitRep.not w).symm⟩

/-- **C30**: the rotation of opt_64. -/
theorem C30_opt64_ror (w : BitVec 64) (n : Nat) (h : n < 64) : Opt.Opt64.ror w n = w.rotateRight n := Opt.Opt64.ror_eq w n h

/-- **C30**: the rotation of opt_8, by bytes, for the amounts by which the code rotates. -/
theorem C30_opt8_ror (w : BitVec 64) (n : Nat) (h : n ∈ [1, 5, 7, 9, 10, 19, 22, 34, 39]) : Opt.Opt8.ror w n = w.rotateRight n :=
  Opt.Opt8.ror_eq n h w

/-! ## The hypotheses can be met -/

example : ∃ f, (6, f) ∈ Target.perms .a128aBi8 ∧ usesAscon .a128aBi8 ∧ Target.conforming .a128aBi8 = true :=
  (C29_rounds_present .a128aBi8 6 (by decide)).elim fun f h => ⟨f, h, Or.inl rfl, rfl⟩

example : ∃ f, (16, f) ∈ Target.perms .k128aOpt64 ∧ ¬ usesAscon .k128aOpt64 :=
  (C29_rounds_present .k128aOpt64 16 (by decide)).elim fun f h => ⟨f, h, by rintro (h | h) <;> cases h⟩

/-- The permutations move states: one round on the zero state. -/
example : Ascon.perm 1 (List.replicate 40 0) ≠ List.replicate 40 0 ∧ Keccak.perm 1 (List.replicate 50 0) ≠ List.replicate 50 0 := by
  decide +kernel

example : laneCode .a128aBi32 = some (Opt.Bi32.toWord, Opt.Bi32.fromWord) := rfl
/-- Not the identity. -/
example : Opt.Bi32.toBI 2 = 0x100000000 ∧ Opt.Bi8.interleave8 2 = 0x100 := by decide +kernel

end Props
