import Verif.Proof.AsconSpec
import Verif.Proof.KeccakRef
/-!
# The permutations are bijections
-/

namespace Spec

/-- `f` has the two-sided inverse `g`. -/
def Inverse (f g : α → α) : Prop := (∀ x, g (f x) = x) ∧ (∀ x, f (g x) = x)

/-- `f` is a bijection of `α` onto itself. -/
def Bijective (f : α → α) : Prop := (∀ x y, f x = f y → x = y) ∧ ∀ y, ∃ x, f x = y

theorem Inverse.bijective {f g : α → α} (h : Inverse f g) : Bijective f :=
  ⟨fun x y e => by rw [← h.1 x, e, h.1], fun y => ⟨g y, h.2 y⟩⟩

theorem Inverse.comp {f g f' g' : α → α} (h : Inverse f g) (h' : Inverse f' g') : Inverse (fun x => f' (f x)) (fun x => g (g' x)) :=
  ⟨fun x => by simp only [h'.1, h.1], fun x => by simp only [h.2, h'.2]⟩

theorem repeat_add (f : α → α) (m n : Nat) (x : α) : Nat.repeat f (m + n) x = Nat.repeat f m (Nat.repeat f n x) := by
  induction m with
  | zero => rw [Nat.zero_add]; rfl
  | succ m ih => rw [Nat.succ_add]; simp only [Nat.repeat, ih]

/-- A function with `f^(n+1) = id` is invertible. -/
theorem Inverse.of_repeat {f : α → α} {n : Nat} (h : ∀ x, Nat.repeat f (n + 1) x = x) : Inverse f (Nat.repeat f n) :=
  ⟨fun x => by have := h x; rwa [repeat_add] at this, fun x => h x⟩

/-- An injective function on `{0, …, n-1}` is surjective. -/
theorem surj_of_inj (n : Nat) : ∀ (f : Nat → Nat), (∀ i, i < n → f i < n) → (∀ i j, i < n → j < n → f i = f j → i = j) →
    ∀ j, j < n → ∃ i, i < n ∧ f i = j := by
  induction n with
  | zero => exact fun _ _ _ j hj => absurd hj (Nat.not_lt_zero j)
  | succ n ih =>
    intro f hf hinj j hj
    have hv := hf n (by omega)
    have key := ih (fun i => if f i = n then f n else f i) (fun i hi => by
      have h1 := hf i (by omega)
      split
      · have : f n ≠ n := fun h => by have := hinj i n (by omega) (by omega) (by omega); omega
        omega
      · omega) (fun i k hi hk h => by
      have hik := hinj i k (by omega) (by omega)
      have hin := hinj i n (by omega) (by omega)
      have hkn := hinj k n (by omega) (by omega)
      split at h <;> split at h <;> omega)
    by_cases h1 : j = f n
    · exact ⟨n, by omega, h1.symm⟩
    by_cases h2 : j = n
    · obtain ⟨i, hi, h⟩ := key (f n) (by omega)
      split at h
      · exact ⟨i, by omega, by omega⟩
      · exact absurd (hinj i n (by omega) (by omega) h) (by omega)
    · obtain ⟨i, hi, h⟩ := key j (by omega)
      split at h
      · omega
      · exact ⟨i, by omega, h⟩

/-- An injective function on words is bijective. -/
theorem bijective_of_inj {w : Nat} (f : BitVec w → BitVec w) (h : ∀ x y, f x = f y → x = y) : Bijective f := by
  refine ⟨h, fun y => ?_⟩
  obtain ⟨i, _, hi⟩ := surj_of_inj (2 ^ w) (fun i => (f (BitVec.ofNat w i)).toNat) (fun i _ => (f _).isLt) (fun i j hi hj e => by
    have := congrArg BitVec.toNat (h _ _ (BitVec.eq_of_toNat_eq e))
    simpa [Nat.mod_eq_of_lt hi, Nat.mod_eq_of_lt hj] using this) y.toNat y.isLt
  exact ⟨_, BitVec.eq_of_toNat_eq hi⟩

namespace Ascon

theorem getLsbD_rotR (x : BitVec 64) (r : Nat) {i : Nat} (hi : i < 64) : (x.rotateRight r).getLsbD i = x.getLsbD ((i + r) % 64) := by
  have := Nat.mod_lt r (show 64 > 0 by decide)
  rw [BitVec.getLsbD_rotateRight, cond_eq_ite, Nat.add_mod, Nat.mod_eq_of_lt hi]
  generalize r % 64 = r' at *
  by_cases h : i < 64 - r'
  · rw [if_pos (decide_eq_true h), Nat.mod_eq_of_lt (by omega), Nat.add_comm]
  · rw [if_neg (by simpa using h), decide_eq_true hi, Bool.true_and]
    congr 1
    omega

theorem rot_xor (x y : BitVec 64) (r : Nat) : (x ^^^ y).rotateRight r = x.rotateRight r ^^^ y.rotateRight r := by
  apply BitVec.eq_of_getLsbD_eq
  intro i hi
  simp only [getLsbD_rotR _ _ hi, BitVec.getLsbD_xor]

theorem rot_rot (x : BitVec 64) (a b : Nat) : (x.rotateRight a).rotateRight b = x.rotateRight (a + b) := by
  apply BitVec.eq_of_getLsbD_eq
  intro i hi
  rw [getLsbD_rotR _ _ hi, getLsbD_rotR _ _ (Nat.mod_lt _ (by decide)), getLsbD_rotR _ _ hi]
  congr 1
  omega

theorem rot_full (x : BitVec 64) (k : Nat) : x.rotateRight (64 * k) = x := by
  apply BitVec.eq_of_getLsbD_eq
  intro i hi
  rw [getLsbD_rotR _ _ hi]
  congr 1
  omega

/-- Squaring the linear layer doubles the rotation amounts. -/
theorem sigma_sigma (a b : Nat) (x : BitVec 64) : sigma a b (sigma a b x) = sigma (a + a) (b + b) x := by
  simp only [sigma, rot_xor, rot_rot, Nat.add_comm b a]
  generalize x.rotateRight (a + a) = u
  generalize x.rotateRight (b + b) = v
  generalize x.rotateRight (a + b) = w
  generalize x.rotateRight a = p
  generalize x.rotateRight b = q
  apply BitVec.eq_of_getLsbD_eq
  intro i _
  simp only [BitVec.getLsbD_xor]
  generalize x.getLsbD i = b0
  generalize u.getLsbD i = b1
  generalize v.getLsbD i = b2
  generalize w.getLsbD i = b3
  generalize p.getLsbD i = b4
  generalize q.getLsbD i = b5
  revert b0 b1 b2 b3 b4 b5
  decide

theorem repeat_sigma (a b k : Nat) (x : BitVec 64) : Nat.repeat (sigma a b) (2 ^ k) x = sigma (2 ^ k * a) (2 ^ k * b) x := by
  induction k generalizing x with
  | zero => simp [Nat.repeat]
  | succ k ih =>
    rw [show 2 ^ (k + 1) = 2 ^ k + 2 ^ k by omega, repeat_add, ih, ih, sigma_sigma, Nat.add_mul, Nat.add_mul]

theorem sigma_inverse (a b : Nat) : Inverse (sigma a b) (Nat.repeat (sigma a b) 63) := by
  apply Inverse.of_repeat
  intro x
  have := repeat_sigma a b 6 x
  rw [show 2 ^ 6 = 64 by rfl] at this
  rw [show 63 + 1 = 64 by rfl, this, sigma, rot_full, rot_full]
  simp

/-- Inverse of the linear layer. -/
def linInv (s : State) : State :=
  ⟨Nat.repeat (sigma 19 28) 63 s.x0, Nat.repeat (sigma 61 39) 63 s.x1, Nat.repeat (sigma 1 6) 63 s.x2,
   Nat.repeat (sigma 10 17) 63 s.x3, Nat.repeat (sigma 7 41) 63 s.x4⟩

theorem lin_inverse : Inverse lin linInv := by
  constructor <;> intro s <;> simp only [lin, linInv]
  · rw [(sigma_inverse 19 28).1, (sigma_inverse 61 39).1, (sigma_inverse 1 6).1, (sigma_inverse 10 17).1, (sigma_inverse 7 41).1]
  · rw [(sigma_inverse 19 28).2, (sigma_inverse 61 39).2, (sigma_inverse 1 6).2, (sigma_inverse 10 17).2, (sigma_inverse 7 41).2]

/-- Inverse of the S-box. -/
def sboxInv (k : Nat) (a0 a1 a2 a3 a4 : Bool) : Bool :=
  (sboxTable.idxOf (16 * a0.toNat + 8 * a1.toNat + 4 * a2.toNat + 2 * a3.toNat + a4.toNat)).testBit (4 - k)

/-- Inverse of the substitution layer. -/
def subInv (s : State) : State :=
  let w k := ofBits 64 fun i => sboxInv k (s.x0.getLsbD i) (s.x1.getLsbD i) (s.x2.getLsbD i) (s.x3.getLsbD i) (s.x4.getLsbD i)
  ⟨w 0, w 1, w 2, w 3, w 4⟩

theorem sub_inverse : Inverse sub subInv := by
  constructor
  · intro s
    apply State.ext' <;> apply BitVec.eq_of_getLsbD_eq <;> intro i hi <;> simp only [subInv, getLsbD_ofBits, hi, decide_true, Bool.true_and] <;>
      simp only [sub, getLsbD_subWord _ _ hi] <;>
      generalize s.x0.getLsbD i = a0 <;> generalize s.x1.getLsbD i = a1 <;> generalize s.x2.getLsbD i = a2 <;>
      generalize s.x3.getLsbD i = a3 <;> generalize s.x4.getLsbD i = a4 <;> revert a0 a1 a2 a3 a4 <;> decide
  · intro s
    apply State.ext' <;> apply BitVec.eq_of_getLsbD_eq <;> intro i hi <;> simp only [sub, getLsbD_subWord _ _ hi] <;>
      simp only [subInv, getLsbD_ofBits, hi, decide_true, Bool.true_and] <;>
      generalize s.x0.getLsbD i = a0 <;> generalize s.x1.getLsbD i = a1 <;> generalize s.x2.getLsbD i = a2 <;>
      generalize s.x3.getLsbD i = a3 <;> generalize s.x4.getLsbD i = a4 <;> revert a0 a1 a2 a3 a4 <;> decide

theorem round_inverse (i : Nat) : ∃ g, Inverse (Spec.Ascon.round i) g := by
  have hc : Inverse (fun s : State => { s with x2 := s.x2 ^^^ rc i }) (fun s : State => { s with x2 := s.x2 ^^^ rc i }) := by
    constructor <;> intro s <;> simp only [BitVec.xor_assoc, BitVec.xor_self, BitVec.xor_zero]
  exact ⟨_, (hc.comp sub_inverse).comp lin_inverse⟩

theorem rounds_inverse (i n : Nat) : ∃ g, Inverse (rounds i n) g := by
  induction n generalizing i with
  | zero => exact ⟨id, fun _ => rfl, fun _ => rfl⟩
  | succ n ih =>
    obtain ⟨g, hg⟩ := ih (i + 1)
    obtain ⟨g', hg'⟩ := round_inverse i
    exact ⟨_, hg'.comp hg⟩

theorem p_bijective (n : Nat) : Bijective (p n) := (rounds_inverse (12 - n) n).elim fun _ h => h.bijective

end Ascon

namespace Keccak

/-- `θ` generalised: offsets `a` in the first coordinate and `r` in the rotation. -/
def thetaG (a r : Nat) (A : State) : State :=
  ofLanes fun x y => lane A x y ^^^ parity A (x + 4 * a) ^^^ (parity A (x + a)).rotateLeft r

theorem theta_eq_G : theta = thetaG 1 1 := rfl

theorem lane_mod (A : State) (x y : Nat) : lane A (x % 5) (y % 5) = lane A x y := by
  simp only [lane, Nat.mod_mod]

theorem parity_congr (A : State) {x x' : Nat} (h : x % 5 = x' % 5) : parity A x = parity A x' := by
  simp only [parity, lane, h]

theorem getLsbD_rotL (x : BitVec 16) (r : Nat) {i : Nat} (hi : i < 16) : (x.rotateLeft r).getLsbD i = x.getLsbD ((i + 15 * r) % 16) := by
  have := Nat.mod_lt r (show 16 > 0 by decide)
  rw [BitVec.getLsbD_rotateLeft, cond_eq_ite, show (i + 15 * r) % 16 = (i + 15 * (r % 16)) % 16 by omega]
  generalize r % 16 = r' at *
  by_cases h : i < r'
  · rw [if_pos (decide_eq_true h)]
    congr 1
    omega
  · rw [if_neg (by simpa using h), decide_eq_true hi, Bool.true_and]
    congr 1
    omega

theorem rotl_xor (x y : BitVec 16) (r : Nat) : (x ^^^ y).rotateLeft r = x.rotateLeft r ^^^ y.rotateLeft r := by
  apply BitVec.eq_of_getLsbD_eq
  intro i hi
  simp only [getLsbD_rotL _ _ hi, BitVec.getLsbD_xor]

theorem rotl_rotl (x : BitVec 16) (a b : Nat) : (x.rotateLeft a).rotateLeft b = x.rotateLeft (a + b) := by
  apply BitVec.eq_of_getLsbD_eq
  intro i hi
  rw [getLsbD_rotL _ _ hi, getLsbD_rotL _ _ (Nat.mod_lt _ (by decide)), getLsbD_rotL _ _ hi]
  congr 1
  omega

theorem rotl_full (x : BitVec 16) (k : Nat) : x.rotateLeft (16 * k) = x := by
  apply BitVec.eq_of_getLsbD_eq
  intro i hi
  rw [getLsbD_rotL _ _ hi]
  congr 1
  omega

theorem lane_thetaG (a r : Nat) (A : State) (x y : Nat) : lane (thetaG a r A) x y =
    lane A x y ^^^ parity A (x + 4 * a) ^^^ (parity A (x + a)).rotateLeft r := by
  rw [thetaG, lane_ofLanes, lane_mod, parity_congr A (x := x % 5 + 4 * a) (x' := x + 4 * a) (by omega),
    parity_congr A (x := x % 5 + a) (x' := x + a) (by omega)]

theorem parity_thetaG (a r : Nat) (A : State) (x : Nat) :
    parity (thetaG a r A) x = parity A x ^^^ parity A (x + 4 * a) ^^^ (parity A (x + a)).rotateLeft r := by
  have : parity A x = lane A x 0 ^^^ lane A x 1 ^^^ lane A x 2 ^^^ lane A x 3 ^^^ lane A x 4 := rfl
  rw [parity, lane_thetaG, lane_thetaG, lane_thetaG, lane_thetaG, lane_thetaG, this]
  generalize parity A (x + 4 * a) = u
  generalize (parity A (x + a)).rotateLeft r = v
  generalize lane A x 0 = l0
  generalize lane A x 1 = l1
  generalize lane A x 2 = l2
  generalize lane A x 3 = l3
  generalize lane A x 4 = l4
  apply BitVec.eq_of_getLsbD_eq
  intro i _
  simp only [BitVec.getLsbD_xor]
  generalize u.getLsbD i = b0
  generalize v.getLsbD i = b1
  generalize l0.getLsbD i = b2
  generalize l1.getLsbD i = b3
  generalize l2.getLsbD i = b4
  generalize l3.getLsbD i = b5
  generalize l4.getLsbD i = b6
  revert b0 b1 b2 b3 b4 b5 b6
  decide

theorem thetaG_thetaG (a r b t : Nat) (A : State) : thetaG b t (thetaG a r A) =
    ofLanes fun x y => lane A x y ^^^ parity A (x + 4 * a) ^^^ (parity A (x + a)).rotateLeft r ^^^
      (parity A (x + 4 * b) ^^^ parity A (x + 4 * b + 4 * a) ^^^ (parity A (x + 4 * b + a)).rotateLeft r) ^^^
      ((parity A (x + b)).rotateLeft t ^^^ (parity A (x + b + 4 * a)).rotateLeft t ^^^ (parity A (x + b + a)).rotateLeft (r + t)) := by
  conv => lhs; rw [thetaG]
  apply ofLanes_congr
  intro x y hx hy
  rw [lane_thetaG, parity_thetaG, parity_thetaG, rotl_xor, rotl_xor, rotl_rotl]

theorem thetaG_sq (a r : Nat) (A : State) : thetaG a r (thetaG a r A) = thetaG (a + a) (r + r) A := by
  rw [thetaG_thetaG, thetaG]
  apply ofLanes_congr
  intro x y hx hy
  rw [parity_congr A (x := x + 4 * a + 4 * a) (x' := x + 4 * (a + a)) (by omega),
    parity_congr A (x := x + 4 * a + a) (x' := x) (by omega), parity_congr A (x := x + a + 4 * a) (x' := x) (by omega),
    parity_congr A (x := x + a + a) (x' := x + (a + a)) (by omega)]
  generalize parity A (x + 4 * (a + a)) = u
  generalize parity A (x + 4 * a) = v
  generalize (parity A (x + a)).rotateLeft r = w
  generalize (parity A x).rotateLeft r = z
  generalize (parity A (x + (a + a))).rotateLeft (r + r) = k
  generalize lane A x y = l
  apply BitVec.eq_of_getLsbD_eq
  intro i _
  simp only [BitVec.getLsbD_xor]
  generalize u.getLsbD i = b0
  generalize v.getLsbD i = b1
  generalize w.getLsbD i = b2
  generalize z.getLsbD i = b3
  generalize k.getLsbD i = b4
  generalize l.getLsbD i = b5
  revert b0 b1 b2 b3 b4 b5
  decide

theorem thetaG_16 (A : State) : thetaG 16 16 A = thetaG 1 0 A := by
  simp only [thetaG]
  apply ofLanes_congr
  intro x y hx hy
  rw [parity_congr A (x := x + 4 * 16) (x' := x + 4 * 1) (by omega), parity_congr A (x := x + 16) (x' := x + 1) (by omega)]
  have h16 := rotl_full (parity A (x + 1)) 1
  have h0 := rotl_full (parity A (x + 1)) 0
  rw [show 16 * 1 = 16 by rfl] at h16
  rw [show 16 * 0 = 0 by rfl] at h0
  rw [h16, h0]

theorem thetaG_cube (A : State) : thetaG 1 0 (thetaG 1 0 (thetaG 1 0 A)) = A := by
  rw [thetaG_sq, thetaG_thetaG]
  have h0 : ∀ w : BitVec 16, w.rotateLeft 0 = w := fun w => rotl_full w 0
  have : A = ofLanes fun x y => lane A x y := by
    apply Vector.ext
    intro i hi
    simp only [ofLanes, lane, Vector.getElem_ofFn]
    congr 1
    omega
  conv => rhs; rw [this]
  apply ofLanes_congr
  intro x y hx hy
  simp only [Nat.add_zero, h0]
  rw [parity_congr A (x := x + 4 * (1 + 1) + 4 * 1) (x' := x + 2) (by omega),
    parity_congr A (x := x + 4 * (1 + 1) + 1) (x' := x + 4) (by omega),
    parity_congr A (x := x + 4 * (1 + 1)) (x' := x + 3) (by omega),
    parity_congr A (x := x + (1 + 1) + 4 * 1) (x' := x + 1) (by omega),
    parity_congr A (x := x + (1 + 1) + 1) (x' := x + 3) (by omega),
    parity_congr A (x := x + 4 * 1) (x' := x + 4) (by omega),
    parity_congr A (x := x + (1 + 1)) (x' := x + 2) (by omega)]
  generalize parity A (x + 1) = u
  generalize parity A (x + 2) = v
  generalize parity A (x + 3) = w
  generalize parity A (x + 4) = z
  generalize lane A x y = l
  apply BitVec.eq_of_getLsbD_eq
  intro i _
  simp only [BitVec.getLsbD_xor]
  generalize u.getLsbD i = b0
  generalize v.getLsbD i = b1
  generalize w.getLsbD i = b2
  generalize z.getLsbD i = b3
  generalize l.getLsbD i = b4
  revert b0 b1 b2 b3 b4
  decide

/-- `θ` has order 48. -/
theorem theta_inverse : Inverse theta (Nat.repeat theta 47) := by
  apply Inverse.of_repeat
  intro A
  have h2 : ∀ B, Nat.repeat theta 2 B = thetaG 2 2 B := fun B => thetaG_sq 1 1 B
  have h4 : ∀ B, Nat.repeat theta 4 B = thetaG 4 4 B := fun B => by
    rw [show 4 = 2 + 2 by rfl, repeat_add, h2, h2]; exact thetaG_sq 2 2 B
  have h8 : ∀ B, Nat.repeat theta 8 B = thetaG 8 8 B := fun B => by
    rw [show 8 = 4 + 4 by rfl, repeat_add, h4, h4]; exact thetaG_sq 4 4 B
  have h16 : ∀ B, Nat.repeat theta 16 B = thetaG 1 0 B := fun B => by
    rw [show 16 = 8 + 8 by rfl, repeat_add, h8, h8, ← thetaG_16]; exact thetaG_sq 8 8 B
  rw [show 47 + 1 = 16 + (16 + 16) by rfl, repeat_add, repeat_add, h16, h16, h16, thetaG_cube]

theorem ofLanes_lane (A : State) : (ofLanes fun x y => lane A x y) = A := by
  apply Vector.ext
  intro i hi
  simp only [ofLanes, lane, Vector.getElem_ofFn]
  congr 1
  omega

/-- Inverse of `ρ`. -/
def rhoInv (A : State) : State := ofLanes fun x y => (lane A x y).rotateLeft (16 - rhoOffset x y)

theorem rhoOffset_lt (x y : Nat) : rhoOffset x y < 16 := by
  unfold rhoOffset
  split
  · exact Nat.mod_lt _ (by decide)
  · decide

theorem rho_inverse : Inverse rho rhoInv := by
  constructor <;> intro A
  · conv => rhs; rw [← ofLanes_lane A]
    rw [rhoInv]
    apply ofLanes_congr
    intro x y hx hy
    have := rhoOffset_lt x y
    rw [rho, lane_ofLanes, lane_mod, Nat.mod_eq_of_lt hx, Nat.mod_eq_of_lt hy, rotl_rotl,
      show rhoOffset x y + (16 - rhoOffset x y) = 16 * 1 by omega, rotl_full]
  · conv => rhs; rw [← ofLanes_lane A]
    rw [rho]
    apply ofLanes_congr
    intro x y hx hy
    have := rhoOffset_lt x y
    rw [rhoInv, lane_ofLanes, lane_mod, Nat.mod_eq_of_lt hx, Nat.mod_eq_of_lt hy, rotl_rotl,
      show 16 - rhoOffset x y + rhoOffset x y = 16 * 1 by omega, rotl_full]

/-- Inverse of `π`. -/
def piInv (A : State) : State := ofLanes fun x y => lane A y (2 * x + 3 * y)

theorem lane_congr (A : State) {x y x' y' : Nat} (hx : x % 5 = x' % 5) (hy : y % 5 = y' % 5) : lane A x y = lane A x' y' := by
  simp only [lane, hx, hy]

theorem pi_inverse : Inverse pi piInv := by
  constructor <;> intro A
  · conv => rhs; rw [← ofLanes_lane A]
    rw [piInv]
    apply ofLanes_congr
    intro x y hx hy
    rw [pi, lane_ofLanes]
    exact lane_congr A (by omega) (by omega)
  · conv => rhs; rw [← ofLanes_lane A]
    rw [pi]
    apply ofLanes_congr
    intro x y hx hy
    rw [piInv, lane_ofLanes]
    exact lane_congr A (by omega) (by omega)

theorem lane_chi (A : State) (x y : Nat) :
    lane (chi A) x y = lane A x y ^^^ (~~~ lane A (x + 1) y &&& lane A (x + 2) y) := by
  rw [chi, lane_ofLanes]
  rw [lane_mod, lane_congr A (x := x % 5 + 1) (y := y % 5) (x' := x + 1) (y' := y) (by omega) (by omega),
    lane_congr A (x := x % 5 + 2) (y := y % 5) (x' := x + 2) (y' := y) (by omega) (by omega)]

/-- `χ` has order 4. -/
theorem chi_inverse : Inverse chi (Nat.repeat chi 3) := by
  apply Inverse.of_repeat
  intro A
  conv => rhs; rw [← ofLanes_lane A]
  show chi (chi (chi (chi A))) = _
  rw [chi]
  apply ofLanes_congr
  intro x y hx hy
  simp only [lane_chi, Nat.add_assoc, Nat.reduceAdd]
  rw [lane_congr A (x := x + 5) (y := y) (x' := x) (y' := y) (by omega) rfl,
    lane_congr A (x := x + 6) (y := y) (x' := x + 1) (y' := y) (by omega) rfl,
    lane_congr A (x := x + 7) (y := y) (x' := x + 2) (y' := y) (by omega) rfl,
    lane_congr A (x := x + 8) (y := y) (x' := x + 3) (y' := y) (by omega) rfl]
  apply BitVec.eq_of_getLsbD_eq
  intro i hi
  simp only [BitVec.getLsbD_xor, BitVec.getLsbD_and, BitVec.getLsbD_not, hi, decide_true, Bool.true_and]
  generalize (lane A x y).getLsbD i = b0
  generalize (lane A (x + 1) y).getLsbD i = b1
  generalize (lane A (x + 2) y).getLsbD i = b2
  generalize (lane A (x + 3) y).getLsbD i = b3
  generalize (lane A (x + 4) y).getLsbD i = b4
  revert b0 b1 b2 b3 b4
  decide

theorem iota_inverse (i : Nat) : Inverse (iota i) (iota i) := by
  have key : ∀ A, iota i (iota i A) = A := by
    intro A
    conv => rhs; rw [← ofLanes_lane A]
    rw [iota]
    apply ofLanes_congr
    intro x y hx hy
    rw [iota, lane_ofLanes, lane_ofLanes]
    simp only [Nat.zero_mod, Nat.mod_eq_of_lt hx, Nat.mod_eq_of_lt hy, and_self, if_true]
    split
    · rename_i h
      rw [h.1, h.2, BitVec.xor_assoc, BitVec.xor_self, BitVec.xor_zero]
    · rfl
  exact ⟨key, key⟩

theorem round_inverse (i : Nat) : ∃ g, Inverse (Spec.Keccak.round i) g := by
  obtain ⟨t, ht⟩ : ∃ t, Inverse theta t := ⟨_, theta_inverse⟩
  obtain ⟨c, hc⟩ : ∃ t, Inverse chi t := ⟨_, chi_inverse⟩
  refine ⟨fun A => t (rhoInv (piInv (c (iota i A)))), fun A => ?_, fun A => ?_⟩
  · show t (rhoInv (piInv (c (iota i (Spec.Keccak.round i A))))) = A
    rw [Spec.Keccak.round, (iota_inverse i).1, hc.1, pi_inverse.1, rho_inverse.1, ht.1]
  · rw [Spec.Keccak.round, ht.2, rho_inverse.2, pi_inverse.2, hc.2, (iota_inverse i).1]

theorem rounds_inverse (i n : Nat) : ∃ g, Inverse (rounds i n) g := by
  induction n generalizing i with
  | zero => exact ⟨id, fun _ => rfl, fun _ => rfl⟩
  | succ n ih =>
    obtain ⟨g, hg⟩ := ih (i + 1)
    obtain ⟨g', hg'⟩ := round_inverse i
    exact ⟨fun A => g' (g A), fun A => by show g' (g (rounds i (n + 1) A)) = A; rw [rounds, hg.1, hg'.1], fun A => by rw [rounds, hg'.2, hg.2]⟩

theorem p_bijective (n : Nat) : Bijective (p n) := by
  obtain ⟨_, h⟩ := rounds_inverse (20 - n) n
  exact h.bijective

end Keccak
end Spec
