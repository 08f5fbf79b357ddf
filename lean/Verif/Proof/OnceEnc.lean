import Verif.Proof.Once
import Verif.Proof.Words
import Verif.Proof.Pool
/-!
# The encryption loops write each byte of the output once
-/

namespace Model
open C

namespace Ref
variable {G : Cfg}

theorem once_isapEnc (P : PermShape G) (k npub m : Ptr) (mlen : Nat) (c : Ptr) :
    Once (isapEnc G k npub m mlen c) (Range c 0 mlen) fun _ => True := by
  unfold isapEnc
  refine Once.pre (gl := false) (sim_isapRk P k _ (x := .ext _) (y := .ext _) rfl _ _) fun x => ?_
  refine Once.pre (gl := false) (sim_overwriteBytes (x := x ++ _) (y := x ++ _) rfl (d := .ext _) (d' := .ext _) rfl _ _) fun x => ?_
  have h := Once.forN (c := c) (fun i => i) (fun _ _ => True) (body := fun i (x : List Byte × Nat) => do
    let x ← refill G G.sE x.1 x.2
    let ks ← extractBytes G x.1 (i % G.rHsz) 1
    let d ← load8 (m + i)
    store8 (c + i) (d ^^^ ks.getD 0 0)
    pure (x.1, x.2 - 1)) (fun _ => Nat.le_succ _) (fun i x _ => by
      refine Once.pre (gl := false) (sim_refill P _ rfl _) fun x => ?_
      refine Once.pre (gl := false) (sim_extractBytes (y := x.1) rfl _ _) fun ks => ?_
      refine Once.pre (gl := false) (sim_load8 _) fun d => ?_
      exact (Once.store8 c i _).seq (k := i + 1) (fun _ _ => trivial) (by omega) (Nat.le_refl _)) mlen 0 (x, 0) trivial
  rw [Nat.zero_add] at h
  exact h.seq (fun _ _ => trivial) (Nat.zero_le _) (Nat.le_refl _)

end Ref

/-- Byte by byte. -/
theorem once_bytes (m c : Ptr) (f : Nat → Byte → Byte) (n : Nat) :
    Once (forN n 0 (fun i (_ : Unit) => do
      let d ← load8 (m + i)
      store8 (c + i) (f i d)) ()) (Range c 0 n) fun _ => True := by
  have h := Once.forN (c := c) (fun i => i) (fun _ _ => True) (body := fun i (_ : Unit) => do
    let d ← load8 (m + i)
    store8 (c + i) (f i d)) (fun _ => Nat.le_succ _)
    (fun i x _ => Once.pre (gl := false) (sim_load8 _) fun d => Once.store8 c i _) n 0 () trivial
  rwa [Nat.zero_add] at h

theorem once_tail {c : Ptr} {r len : Nat} {f : CM α} {Q : α → Prop} (h : Once f (Range (c + r * (len / r)) 0 (len % r)) Q) :
    Once f (Range c (r * (len / r)) len) Q := by
  have := h.shift
  rwa [Nat.add_zero, Nat.div_add_mod] at this

theorem mul_div_le (len r : Nat) : r * (len / r) ≤ len := Nat.mul_div_le len r

namespace Opt
variable {D : Prims}

theorem once_isapEnc (P : PrimsShape D) (k npub m : Ptr) (mlen : Nat) (c : Ptr) :
    Once (isapEnc D k npub m mlen c) (Range c 0 mlen) fun _ => True := by
  unfold isapEnc
  refine Once.pre (gl := false) (sim_isapRk P k _ (x := .ext _) (y := .ext _) rfl _ _ _) fun s => ?_
  refine Once.pre (gl := false) (sim_load64 _) fun n0 => Once.pre (gl := false) (sim_load64 _) fun n1 => ?_
  refine (Once.whileGe (c := c) (r := 8) (by decide) ?_ mlen 0 _).seq (k := mlen) (fun s _ => ?_) (Nat.zero_le _) ?_
  · intro i s
    refine Once.pre (P.pE _ _) fun s => ?_
    refine Once.pre (gl := false) (sim_load64 _) fun d => ?_
    exact (Once.store64 c (8 * i) _).seq (fun _ _ => trivial) (by omega) (Nat.le_refl _)
  · rw [Nat.zero_add]
    refine once_tail ?_
    unfold encTail
    refine Once.ifThen fun _ => ?_
    exact Once.pre (P.pE _ _) fun s => once_bytes _ _ (fun i d => d ^^^ byteOf (D.fromWord s.x0) i) _
  · rw [Nat.zero_add]; exact mul_div_le ..

end Opt

namespace A128

namespace Opt64

theorem once_isapEnc (D : Cfg) (k npub m : Ptr) (mlen : Nat) (hm : mlen < D.dm.ulong) (c : Ptr) :
    Once (isapEnc D k npub m mlen c) (Range c 0 mlen) fun _ => True := by
  unfold isapEnc
  refine Once.pre (gl := false) (sim_isapRk D k _ (x := .ext _) (y := .ext _) rfl _ _ _) fun s => ?_
  refine Once.pre (gl := false) (sim_load64 _) fun n0 => Once.pre (gl := false) (sim_load64 _) fun n1 => ?_
  refine (Once.whileRem (c := c) (r := 8) (by decide) mlen ?_ ?_ ?_ mlen 0 _ (by omega)).seq (k := mlen) (fun s _ => trivial)
    (Nat.zero_le _) (Nat.le_refl _)
  · intro i s hi
    rw [Nat.mod_eq_of_lt (by omega : i < D.dm.ulong)]
    refine Once.pre (gl := false) (sim_load64 _) fun d => ?_
    exact (Once.store64 c (8 * i) _).seq (fun _ _ => trivial) (by omega) (Nat.le_refl _)
  · intro i s hi
    rw [Nat.mod_eq_of_lt (by omega : i < D.dm.ulong)]
    refine Once.pre (gl := false) (sim_load64 _) fun d => ?_
    exact (Once.store64 c (8 * i) _).seq (fun _ _ => trivial) (by omega) (Nat.le_refl _)
  · intro i n s hn hi
    rw [Nat.mod_eq_of_lt (by omega : 8 * i < D.dm.ulong)]
    have h := (once_bytes (m + 8 * i) (c + 8 * i) (fun j d => (toLe64 (u64big s.x0)).getD j 0 ^^^ d) n).shift
    rw [Nat.add_zero] at h
    exact h.seq (fun _ _ => trivial) (by omega) (Nat.le_refl _)

end Opt64

namespace Opt32
variable {D : Prims}

theorem once_isapEnc (P : PrimsShape D) (k npub m : Ptr) (mlen : Nat) (c : Ptr) :
    Once (isapEnc D k npub m mlen c) (Range c 0 mlen) fun _ => True := by
  unfold isapEnc
  refine Once.pre (gl := false) (sim_isapRk P k _ (x := .ext _) (y := .ext _) rfl _) fun s => ?_
  refine Once.pre (gl := false) (sim_load64 _) fun n0 => Once.pre (gl := false) (sim_load64 _) fun n1 => ?_
  refine (Once.whileGe (c := c) (r := 8) (by decide) ?_ mlen 0 _).seq (k := mlen) (fun s _ => ?_) (Nat.zero_le _) ?_
  · intro i s
    refine Once.pre (P.pU _ _) fun s => ?_
    refine Once.pre (gl := false) (sim_load64 _) fun d => ?_
    exact (Once.store64 c (8 * i) _).seq (fun _ _ => trivial) (by omega) (Nat.le_refl _)
  · rw [Nat.zero_add]
    refine once_tail ?_
    unfold encTail
    refine Once.ifThen fun _ => ?_
    exact Once.pre (P.pL _ _) fun s => once_bytes _ _ (fun i d => d ^^^ Opt.byteOf (fromWord s.x0) i) _
  · rw [Nat.zero_add]; exact mul_div_le ..

end Opt32

end A128

namespace K128

theorem once_encBlock {D : Prims} (P : PrimsShape D) (m c : Ptr) (i : Nat) (S : List Byte) :
    Once (encBlock D m (c + i) S) (Range c i (i + 18)) fun _ => True := by
  unfold encBlock
  refine Once.pre (P.ldMsg _) fun d => Once.store' 1 c i 18 _ ?_
  simp only [List.length_zipWith, List.length_take]
  omega

theorem once_isapEnc {D : Prims} (P : PrimsShape D) (k npub m : Ptr) (mlen : Nat) (c : Ptr) :
    Once (isapEnc D k npub m mlen c) (Range c 0 mlen) fun _ => True := by
  unfold isapEnc
  refine Once.pre (gl := false) (sim_isapRk P k _ (x := .ext _) (y := .ext _) rfl _) fun s => ?_
  refine Once.pre (gl := false) (sim_loads _ _ _ _) fun nb => ?_
  refine (Once.whileRem (c := c) (r := 18) (by decide) mlen ?_ ?_ ?_ mlen 0 _ (by omega)).seq (k := mlen) (fun s _ => trivial)
    (Nat.zero_le _) (Nat.le_refl _)
  · exact fun i S _ => (once_encBlock P _ c _ S).seq (fun _ _ => trivial) (by omega) (Nat.le_refl _)
  · exact fun i S _ => (once_encBlock P _ c _ S).seq (fun _ _ => trivial) (by omega) (Nat.le_refl _)
  · intro i n S hn hi
    have h := (once_bytes (m + 18 * i) (c + 18 * i) (fun j d => d ^^^ S.getD j 0) n).shift
    rw [Nat.add_zero] at h
    exact h.seq (fun _ _ => trivial) (by omega) (Nat.le_refl _)

namespace Arm

theorem once_encBlock (m c : Ptr) (S : List Byte) : Once (encBlock m c S) (Range c 0 18) fun _ => True := by
  unfold encBlock
  have h := Once.forN (c := c) (fun i => 2 * i) (fun _ _ => True) (body := fun j (_ : Unit) => do
    let d ← load 2 2 (m + 2 * j)
    store 2 (c + 2 * j) (List.zipWith (· ^^^ ·) d ((S.drop (2 * j)).take 2))) (fun i => by omega)
    (fun i x _ => by
      refine Once.pre (gl := false) (sim_load _ _ _) fun d => Once.store' 2 c (2 * i) 2 _ ?_
      simp only [List.length_zipWith, List.length_take]
      omega) 9 0 () trivial
  exact h.seq (fun _ _ => trivial) (by omega) (by omega)

theorem once_isapEnc {F : Prims} (P : PrimsShape F) (k npub m : Ptr) (mlen : Nat) (c : Ptr) :
    Once (isapEnc F k npub m mlen c) (Range c 0 mlen) fun _ => True := by
  unfold isapEnc
  refine Once.widen (b := mlen % 2 ^ 32) ?_ (Nat.le_refl 0) (Nat.mod_le ..)
  simp only
  generalize mlen % 2 ^ 32 = mlen
  refine Once.pre (gl := false) (sim_isapRk P k _ (x := .ext _) (y := .ext _) rfl _) fun s => ?_
  refine Once.pre (gl := false) (sim_loadsDown _ _) fun nb => ?_
  refine (Once.whileGe (c := c) (r := 18) (by decide) ?_ mlen 0 _).seq (k := mlen) (fun s _ => ?_) (Nat.zero_le _) ?_
  · intro i S
    refine Once.pre (gl := false) (sim_perm P _ _ S) fun S => ?_
    have h := (once_encBlock (m + 18 * i) (c + 18 * i) S).shift
    rw [Nat.add_zero] at h
    exact h.seq (fun _ _ => trivial) (by omega) (Nat.le_refl _)
  · rw [Nat.zero_add]
    refine once_tail (Once.ifThen fun _ => ?_)
    refine Once.pre (gl := false) (sim_perm P _ _ s) fun S => ?_
    exact (once_bytes _ _ (fun j d => d ^^^ S.getD j 0) _).seq (fun _ _ => trivial) (Nat.zero_le _) (Nat.le_refl _)
  · rw [Nat.zero_add]; exact mul_div_le ..

end Arm

end K128

/-! ## The AVX-512 version of ISAP-A-128a -/

namespace A128.Avx

theorem once_storeLane (c : Ptr) (i : Nat) (x : BitVec 64) (n : Nat) : Once (storeLane (c + i) x n) (Range c i (i + n)) fun _ => True := by
  unfold storeLane
  have h := Once.forN (c := c + i) (fun i => i) (fun _ _ => True) (body := fun j (_ : Unit) => do
    let d ← (Src.loc (toLe64 x)).get j
    store8 (c + i + j) d) (fun _ => Nat.le_succ _)
    (fun j x _ => Once.pre (gl := false) (sim_get (x := .loc _) (y := .loc _) rfl _) fun d => Once.store8 (c + i) j _) n 0 () trivial
  rw [Nat.zero_add] at h
  exact h.shift

theorem once_encbytes1 {rem : Int} (h : 0 ≤ rem) (h' : rem < 2 ^ 63) :
    Once (encbytes1 rem) (fun _ _ => False) fun n => n = min 8 rem.toNat := by
  unfold encbytes1
  refine Once.branch ?_
  by_cases h8 : rem ≥ 8
  · rw [if_pos (by simpa using h8)]
    show 8 = min 8 rem.toNat
    omega
  · rw [if_neg (by simpa using h8)]
    show u64 rem = min 8 rem.toNat
    unfold u64; omega

theorem once_encbytes2 {rem : Int} {n1 : Nat} (h : 0 ≤ rem) (h' : rem < 2 ^ 63) (hn : n1 = min 8 rem.toNat) :
    Once (encbytes2 rem n1) (fun _ _ => False) fun n => n1 + n = min 16 rem.toNat := by
  unfold encbytes2
  have hu : u64 (rem - n1) = (rem - n1).toNat := by unfold u64; omega
  rw [hu]
  refine Once.branch ?_
  by_cases h8 : (rem - n1).toNat ≥ 8
  · rw [if_pos (by simpa using h8)]
    show n1 + 8 = min 16 rem.toNat
    omega
  · rw [if_neg (by simpa using h8)]
    refine Once.branch ?_
    by_cases h2 : n1 < 8
    · rw [if_pos (by simpa using h2)]
      show n1 + 0 = min 16 rem.toNat
      omega
    · rw [if_neg (by simpa using h2)]
      show n1 + (rem - n1).toNat = min 16 rem.toNat
      omega

theorem once_two {α : Type} (c : Ptr) (i n1 n2 : Nat) (x y : BitVec 64) (a : α) {Q : α → Prop} (h : Q a) :
    Once (storeLane (c + i) x n1 >>= fun _ => storeLane (c + (i + n1)) y n2 >>= fun _ => pure a) (Range c i (i + (n1 + n2))) Q := by
  refine (once_storeLane c i x n1).seq (fun _ _ => ?_) (by omega) (by omega)
  have := once_storeLane c (i + n1) y n2
  rw [Nat.add_assoc i n1 n2] at this
  exact this.seq (fun _ _ => h) (by omega) (Nat.le_refl _)

/-- First code that computes a value. -/
theorem _root_.C.Once.val {α β : Type} {f : CM α} {g : α → CM β} {B : Nat → Nat → Prop} {Q : α → Prop} {R : β → Prop} (h : Once f (fun _ _ => False) Q)
    (hg : ∀ a, Q a → Once (g a) B R) : Once (f >>= g) B R :=
  (h.bind hg fun _ _ h => h.elim).mono (fun _ _ h => h.elim False.elim id) fun _ h => h

theorem once_body (d : DataModel) (m c : Ptr) (mlen : Nat) (hm : mlen < d.ulong) (rem : Int) (h0 : 0 ≤ rem) (h' : rem < 2 ^ 63) (v : Loc)
    (hv : v.idxEnc + rem = mlen) : Once (body d m c mlen rem v) (Range c v.idxEnc (v.idxEnc + min 16 rem.toNat))
      fun w => w.idxEnc = v.idxEnc + min 16 rem.toNat := by
  unfold body
  refine (once_encbytes1 h0 h').val fun n1 hn1 => (once_encbytes2 h0 h' hn1).val fun n2 hn2 => ?_
  refine Once.pre (gl := false) (sim_loadMsg _ _) fun m1 => Once.pre (gl := false) (sim_loadMsg _ _) fun m2 => ?_
  refine Once.pre (gl := false) (sim_macInput _ _ _ _ _ _) fun y => ?_
  rw [← hn2]
  refine once_two c v.idxEnc n1 n2 _ _ _ ?_
  show (v.idxEnc + n1 + n2) % d.ulong = v.idxEnc + (n1 + n2)
  rw [Nat.mod_eq_of_lt (by omega)]
  omega

theorem once_doWhile (d : DataModel) (m c : Ptr) (mlen : Nat) (hm : mlen < d.ulong) (rem : Int) (h0 : 0 ≤ rem) (h' : rem < 2 ^ 63) (v : Loc)
    (hv : v.idxEnc + rem = mlen) : Once (doWhile (body d m c mlen) rem v) (Range c v.idxEnc mlen) fun _ => True := by
  generalize hk : rem.toNat = k
  induction k using Nat.strongRecOn generalizing rem v with
  | _ k ih =>
    rw [doWhile]
    refine (once_body d m c mlen hm rem h0 h' v hv).seq (fun w hw => ?_) (by omega) (by omega)
    split
    · refine Once.branch ?_
      have := ih (rem - 16).toNat (by omega) (rem - 16) (by omega) (by omega) w (by omega) rfl
      rwa [hw] at this
    · exact trivial

theorem once_isapMacEnc (d : DataModel) (k npub ad : Ptr) (adlen : Nat) (c m : Ptr) (mlen : Nat) (h1 : mlen < 2 ^ 63) (h2 : mlen < d.ulong) :
    Once (isapMacEnc d k npub ad adlen c m mlen) (Range c 0 mlen) fun _ => True := by
  unfold isapMacEnc
  have hi : i64 mlen = mlen := by unfold i64; rw [if_pos h1]
  rw [hi]
  refine Once.pre (gl := false) (sim_start _ _ _ _ _) fun x => ?_
  refine (once_doWhile d m c mlen h2 mlen (by omega) (by omega) ⟨x, 0, 0, mlen, 1⟩ (by simp)).seq (k := mlen) (fun v _ => ?_) (Nat.zero_le _)
    (Nat.le_refl _)
  refine Once.pre (gl := false) (sim_macRest _ _ _ _ _ _) fun s => ?_
  refine Once.pre (gl := false) (Opt64.sim_isapRk _ k _ (x := .loc _) (y := .loc _) rfl _ _ _) fun t => ?_
  exact trivial

end A128.Avx

/-! ## The API -/

/-- `isap_enc` writes each byte of its output once, `isap_mac` writes nothing. -/
structure OnceOK (gl : Bool) (L : Limits) (I : Impl) : Prop where
  enc : ∀ k npub m mlen c, mlen < L.maxLen → Once (I.enc k npub m mlen c) (Range c 0 mlen) fun _ => True
  mac : ∀ k npub ad adlen c clen, Sim false gl SameLen (I.mac k npub ad adlen c clen) (I.mac k npub ad adlen c clen)

theorem once_storeTag (al : Nat) (c : Ptr) (n : Nat) (tag : List Byte) :
    Once (storeTag al (c + n) tag) (Range c n (n + 16)) fun _ => True := by
  unfold storeTag
  have h := Once.forN (c := c + n) (fun i => al * i) (fun _ _ => True)
    (body := fun i (_ : Unit) => store al (c + n + al * i) ((tag.drop (al * i)).take al)) (fun i => Nat.mul_le_mul_left _ (Nat.le_succ i))
    (fun i x _ => Once.store' al (c + n) (al * i) al _ (List.length_take_le ..)) (16 / al) 0 () trivial
  rw [Nat.zero_add, Nat.mul_zero] at h
  exact (h.widen (Nat.le_refl 0) (Nat.mul_div_le 16 al)).shift

theorem once_storeLen (p : Ptr) (n : Nat) : Once (storeLen p n) (InBuf p 8) fun _ => True :=
  Once.store 1 p _ (by simp)

theorem cell_range {p c : Ptr} {n i j : Nat} (h : Disjoint p 8 c n) (hj : j ≤ n) (b o : Nat) (h1 : InBuf p 8 b o)
    (h2 : Range c i j b o) : False := by
  obtain ⟨a1, a2, a3⟩ := h1
  obtain ⟨b1, b2, b3⟩ := h2
  rcases h with h | h | h | h | h
  · omega
  · omega
  · exact h (a1.symm.trans b1)
  · omega
  · omega

/-- The parts of an encryption: the length, the ciphertext (and the computation of the tag), the tag. -/
inductive EncParts (c clen : Ptr) (mlen : Nat) : CM Int → Prop where
  | mk {f : CM (List Byte)} (n al : Nat) : Once f (Range c 0 mlen) (fun _ => True) →
      EncParts c clen mlen (storeLen clen n >>= fun _ => f >>= fun tag => storeTag al (c + mlen) tag >>= fun _ => pure 0)

theorem encParts {gl : Bool} {L : Limits} {I : Impl} (P : OnceOK gl L I) (c clen m : Ptr) (mlen : Nat) (ad : Ptr) (adlen : Nat)
    (nsec npub k : Ptr) (h : mlen < L.maxLen) : EncParts c clen mlen (encrypt I c clen m mlen ad adlen nsec npub k) := by
  unfold encrypt
  have : ∀ (g : CM Unit) (f : CM (List Byte)) (r : List Byte → CM Int), g >>= (fun _ => f >>= r) = (g >>= fun _ => f) >>= r :=
    fun g f r => (bind_assoc' g (fun _ => f) r).symm
  simp only [this (ifThen _ _)]
  refine .mk _ _ ?_
  have h1 : Once (ifThen (decide (mlen > 0)) (I.enc k npub m mlen c)) (Range c 0 mlen) fun _ => True := Once.ifThen fun _ => P.enc k npub m mlen c h
  have h2 := (P.mac k npub ad adlen c mlen).once
  exact (h1.bind (fun _ _ => h2) fun _ _ _ h => h).mono (fun _ _ h => h.elim id False.elim) fun _ h => h

theorem EncParts.tidy {c clen : Ptr} {mlen : Nat} {f : CM Int} (h : EncParts c clen mlen f) (hd : Disjoint clen 8 c (mlen + 16)) (e : Env) (s : St) :
    Tidy f e s fun b o => InBuf clen 8 b o ∨ InBuf c (mlen + 16) b o := by
  obtain ⟨n, al, hf⟩ := h
  refine Once.tidy (Q := fun _ => True) ?_ e s
  refine (once_storeLen clen n).bind (fun _ _ => ?_) (cell_range hd (Nat.le_refl _) (i := 0))
  exact hf.seq (fun tag _ => (once_storeTag al c mlen tag).seq (fun _ _ => trivial) (by omega) (Nat.le_refl _)) (Nat.zero_le _) (by omega)

theorem EncParts.last {c clen : Ptr} {mlen : Nat} {f : CM Int} (h : EncParts c clen mlen f) (hd : Disjoint clen 8 c (mlen + 16)) (e : Env) (s : St) :
    Last f e s (fun b o => InBuf clen 8 b o ∨ InBuf c mlen b o) (InBuf (c + mlen) 16) := by
  obtain ⟨n, al, hf⟩ := h
  refine Last.pre ((once_storeLen clen n).tidy e s) (fun _ s1 _ => ?_) (fun b o h1 h2 => cell_range hd (Nat.le_refl _) b o h1 (inBuf_range _ _ _ _ _ h2))
  refine Last.pre (hf.tidy e s1) (fun tag s2 _ => ?_) (fun b o h1 h2 => ?_)
  · have ht : Once (storeTag al (c + mlen) tag >>= fun _ => (pure 0 : CM Int)) (Range c mlen (mlen + 16)) fun _ => True :=
      (once_storeTag al c mlen tag).seq (fun _ _ => trivial) (by omega) (Nat.le_refl _)
    refine Last.of_tidy (ht.tidy e s2) fun b o h1 h2 => ?_
    rcases h2 with h2 | h2
    · exact cell_range hd (Nat.le_refl _) b o h2 h1
    · obtain ⟨_, h3, _⟩ := h1
      obtain ⟨_, _, h4⟩ := h2
      omega
  · obtain ⟨_, _, h3⟩ := h1
    obtain ⟨_, h4, _⟩ := h2
    have h4 : c.off + mlen ≤ o := h4
    omega

theorem runs_loadLen_inv {p : Ptr} {e : Env} {s s' : St} {r : Nat} (h : Runs (loadLen p) e s r s') : r = (le64 (bytesAt s p 8)).toNat := by
  have h : Runs (.load 1 8 p fun bs => .ret (le64 bs).toNat : CM Nat) e s r s' := h
  obtain ⟨_, tr, h⟩ := h.load_inv
  cases h
  rfl

theorem once_loadLen (p : Ptr) : Once (loadLen p) (fun _ _ => False) fun _ => True := fun _ _ => trivial

theorem tidy_pure {α : Type} (a : α) (e : Env) (s : St) (A : Nat → Nat → Prop) : Tidy (pure a : CM α) e s A :=
  Once.tidy (Q := fun _ => True) (show Once (CM.ret a) A _ from trivial) e s

/-- The last part of decryption. -/
theorem tidy_finish {enc : Nat → CM Unit} {mlen m : Ptr} {N : Nat} (hE : Once (enc N) (Range m 0 N) fun _ => True) {e : Env} {s : St}
    (h : (le64 (bytesAt s mlen 8)).toNat = N) (b : Bool) :
    Tidy (branch b >>= fun ok => if ok then (loadLen mlen >>= fun l => ifThen (l > 0) (loadLen mlen >>= enc) >>= fun _ => pure (0 : Int))
      else pure (-1)) e s (Range m 0 N) := by
  have hb : ∀ b, Once (branch b) (fun _ _ => False) fun _ => True := fun b => trivial
  refine Tidy.pre (hb b) fun ok s1 h1 hm => ?_
  cases ok
  · exact tidy_pure _ _ _ _
  · refine Tidy.pre (once_loadLen mlen) fun l s2 h2 hm2 => ?_
    refine Tidy.mono (Tidy.bind (A := Range m 0 N) (B := fun _ _ => False) ?_ (fun _ s3 _ => tidy_pure _ _ _ _) fun _ _ _ h => h)
      fun _ _ h => h.elim id False.elim
    unfold ifThen
    refine Tidy.pre (hb _) fun c s3 h3 hm3 => ?_
    cases c
    · exact tidy_pure _ _ _ _
    · refine Tidy.pre (once_loadLen mlen) fun l s4 h4 hm4 => ?_
      have := runs_loadLen_inv h4
      have hb : bytesAt s3 mlen 8 = bytesAt s mlen 8 := by simp only [bytesAt, hm3, hm2, hm]
      rw [hb, h] at this
      subst this
      exact hE.tidy e s4

theorem dec_len {clen : Nat} (h1 : 16 ≤ clen) (h2 : clen < 2 ^ 64) (s : St) (p : Ptr) :
    (le64 (bytesAt (putBytes s p (toLe64 (BitVec.ofNat 64 (clen + (2 ^ 64 - 16))))) p 8)).toNat = clen - 16 := by
  rw [bytesAt_putBytes_same' _ _ _ (by simp), le64_toLe64, BitVec.toNat_ofNat]
  omega

theorem tidy_decrypt {gl : Bool} {L : Limits} {I : Impl} (P : OnceOK gl L I) (m mlen nsec c : Ptr) (clen : Nat) (ad : Ptr) (adlen : Nat)
    (npub k : Ptr) (h1 : 16 ≤ clen) (h2 : clen < 2 ^ 64) (h3 : clen - 16 < L.maxLen) (hd : Disjoint mlen 8 m (clen - 16)) (e : Env) (s : St) :
    Tidy (decrypt I m mlen nsec c clen ad adlen npub k) e s fun b o => InBuf mlen 8 b o ∨ InBuf m (clen - 16) b o := by
  unfold decrypt
  refine Tidy.bind ((once_storeLen mlen _).tidy e s) (fun _ s1 hs => ?_) (cell_range hd (Nat.le_refl _) (i := 0))
  obtain ⟨_, tr, hs⟩ := Runs.store_inv hs
  cases hs
  have hl := dec_len h1 h2 s mlen
  generalize putBytes s mlen _ = s1 at hl
  refine Tidy.pre (once_loadLen mlen) fun l s2 _ hm2 => ?_
  refine Tidy.pre (P.mac k npub ad adlen c l).once fun tag s3 _ hm3 => ?_
  refine Tidy.pre (Once.loop (fun i cnt => ?_) 16 0 0) fun cnt s4 _ hm4 => ?_
  · exact (once_loadLen mlen).val fun l _ => Once.pre (gl := false) (sim_load8 _) fun _ => trivial
  exact tidy_finish (P.enc k npub c _ m h3) (by simp only [bytesAt, hm4, hm3, hm2]; exact hl) _

theorem Opt.Stp.tidy_decrypt {D : StpPrims} (P : StpShape D) (m mlen nsec c : Ptr) (clen : Nat) (ad : Ptr) (adlen : Nat)
    (npub k : Ptr) (h1 : 16 ≤ clen) (h2 : clen < 2 ^ 64) (hd : Disjoint mlen 8 m (clen - 16)) (e : Env) (s : St) :
    Tidy (Stp.decrypt D m mlen nsec c clen ad adlen npub k) e s fun b o => InBuf mlen 8 b o ∨ InBuf m (clen - 16) b o := by
  unfold Stp.decrypt
  refine Tidy.bind ((once_storeLen mlen _).tidy e s) (fun _ s1 hs => ?_) (cell_range hd (Nat.le_refl _) (i := 0))
  obtain ⟨_, tr, hs⟩ := Runs.store_inv hs
  cases hs
  have hl := dec_len h1 h2 s mlen
  generalize putBytes s mlen _ = s1 at hl
  refine Tidy.pre (once_loadLen mlen) fun l s2 _ hm2 => ?_
  refine Tidy.pre ((Stp.shape P.prims).mac k npub ad adlen c l).once fun tag s3 _ hm3 => ?_
  refine Tidy.pre (Once.loop (fun i cnt => ?_) 16 0 []) fun T s4 _ hm4 => ?_
  · exact (once_loadLen mlen).val fun l _ => Once.pre (gl := false) (sim_load8 _) fun _ => trivial
  refine Tidy.pre (Stp.sim_pvp P.pvp _ tag _ T).once fun cnt s5 _ hm5 => ?_
  exact tidy_finish (once_isapEnc P.prims k npub c _ m) (by simp only [bytesAt, hm5, hm4, hm3, hm2]; exact hl) _

/-- What is needed of an implementation. -/
inductive AeadOnce (L : Limits) : Aead → Prop where
  | common {I : Impl} : OnceOK false L I → AeadOnce L I.aead
  | fused {d : DataModel} : L = ⟨8, 8, min (2 ^ 63) d.ulong, id⟩ → AeadOnce L (A128.Avx.aead d)
  | stp {D : Opt.StpPrims} : Opt.StpShape D → AeadOnce L (Opt.Stp.aead D)

theorem Ref.onceOK {G : Cfg} (P : PermShape G) (L : Limits) : OnceOK false L (impl G) :=
  ⟨fun _ _ _ _ _ _ => once_isapEnc P _ _ _ _ _, (shape P).mac⟩

theorem Opt.onceOK {D : Prims} (P : PrimsShape D) (L : Limits) : OnceOK false L (impl D) :=
  ⟨fun _ _ _ _ _ _ => once_isapEnc P _ _ _ _ _, (shape P).mac⟩

theorem A128.Opt64.onceOK (D : Cfg) {L : Limits} (h : L.maxLen ≤ D.dm.ulong) : OnceOK false L (impl D) :=
  ⟨fun _ _ _ _ _ hm => once_isapEnc D _ _ _ _ (Nat.lt_of_lt_of_le hm h) _, (shape D).mac⟩

theorem A128.Opt32.onceOK {D : Prims} (P : PrimsShape D) (L : Limits) : OnceOK false L (impl D) :=
  ⟨fun _ _ _ _ _ _ => once_isapEnc P _ _ _ _ _, (shape P).mac⟩

theorem K128.onceOK {D : Prims} (P : PrimsShape D) (L : Limits) : OnceOK false L (impl D) :=
  ⟨fun _ _ _ _ _ _ => once_isapEnc P _ _ _ _ _, (shape P).mac⟩

theorem K128.Arm.onceOK {F : Arm.Prims} (P : Arm.PrimsShape F) (L : Limits) : OnceOK false L (Arm.impl F) :=
  ⟨fun _ _ _ _ _ _ => Arm.once_isapEnc P _ _ _ _ _, (Arm.shape P).mac⟩

theorem Target.once (t : Target) : AeadOnce t.limits t.aead := by
  cases t
  case ref p => exact .common (Ref.onceOK p.permShape _)
  case x p => exact .common (Ref.onceOK p.permShape _)
  case a128aOpt32Stp => exact .stp (Opt.switch7_shape _ _ _ _ _ _ _)
  case a128aBi32Stp => exact .stp (Opt.switch7_shape _ _ _ _ _ _ _)
  case a128aBi32Armv6mStp => exact .stp (Opt.switch7_shape _ _ _ _ _ _ _)
  case a128aAvx512 => exact .fused rfl
  case a128Opt64 d => exact .common (A128.Opt64.onceOK _ (Nat.le_refl d.ulong))
  case a128Opt32 => exact .common (A128.Opt32.onceOK A128.Opt32.primsShape _)
  case a128Opt32Armv67m => exact .common (A128.Opt32.onceOK A128.Opt32.primsArmShape _)
  case k128aOpt64 => exact .common (K128.onceOK K128.Opt64.primsK128aShape _)
  case k128Opt64 => exact .common (K128.onceOK K128.Opt64.primsK128Shape _)
  case k128aAvx512 j => exact .common (K128.onceOK (K128.Avx.primsShape j) _)
  case k128aOpt32Armv6m => exact .common (K128.Arm.onceOK K128.Arm.primsK128aV6Shape _)
  case k128aOpt32Armv7m => exact .common (K128.Arm.onceOK K128.Arm.primsK128aV7Shape _)
  case k128Opt32Armv6m => exact .common (K128.Arm.onceOK K128.Arm.primsK128V6Shape _)
  case k128Opt32Armv7m => exact .common (K128.Arm.onceOK K128.Arm.primsK128V7Shape _)
  all_goals refine .common (I := Opt.impl _) (Opt.onceOK ?_ _)
  all_goals first
    | exact Opt.unrolled_shape _ _ _ _ _ _ _
    | exact Opt.switch_shape _ _ _ _ _ _ _
    | exact Opt.tiny_shape _ _ _ _

theorem Target.encParts (t : Target) (a : EncArgs) (h : a.mlen < t.limits.maxLen) : EncParts a.c a.clen a.mlen (t.aead.encrypt a) := by
  have P := t.once
  generalize t.aead = A at P
  generalize t.limits = L at P h
  cases P with
  | common P => exact Model.encParts P _ _ _ _ _ _ a.nsec _ _ h
  | fused hL =>
    subst hL
    exact .mk _ _ (A128.Avx.once_isapMacEnc _ _ _ _ _ _ _ _ (Nat.lt_of_lt_of_le h (Nat.min_le_left ..)) (Nat.lt_of_lt_of_le h (Nat.min_le_right ..)))
  | stp P =>
    exact Model.encParts (L := L) (I := Opt.Stp.impl _) ⟨fun _ _ _ _ _ _ => Opt.once_isapEnc P.prims _ _ _ _ _, (Opt.Stp.shape P.prims).mac⟩
      _ _ _ _ _ _ a.nsec _ _ h

theorem Target.tidy_decrypt (t : Target) (a : DecArgs) (h1 : 16 ≤ a.clen) (h2 : a.clen < 2 ^ 64) (h3 : a.clen - 16 < t.limits.maxLen)
    (hd : Disjoint a.mlen 8 a.m (a.clen - 16)) (e : Env) (s : St) :
    Tidy (t.aead.decrypt a) e s fun b o => InBuf a.mlen 8 b o ∨ InBuf a.m (a.clen - 16) b o := by
  have P := t.once
  generalize t.aead = A at P
  generalize t.limits = L at P h3
  cases P with
  | common P => exact Model.tidy_decrypt P _ _ a.nsec _ _ _ _ _ _ h1 h2 h3 hd e s
  | fused hL =>
    subst hL
    refine Model.tidy_decrypt (gl := false) (L := ⟨8, 8, min (2 ^ 63) _, id⟩) (I := A128.Avx.impl _)
      ⟨fun _ _ _ _ _ h => A128.Opt64.once_isapEnc _ _ _ _ _ (Nat.lt_of_lt_of_le h (Nat.min_le_right ..)) _, (A128.Opt64.shape _).mac⟩
      _ _ a.nsec _ _ _ _ _ _ h1 h2 h3 hd e s
  | stp P => exact Opt.Stp.tidy_decrypt P _ _ a.nsec _ _ _ _ _ _ h1 h2 hd e s

/-! ## Hash -/

theorem Opt.once_cryptoHash {D : Prims} (P : PrimsShape D) (out inp : Ptr) (inlen : Nat) :
    Once (cryptoHash D out inp inlen) (InBuf out 32) fun _ => True := by
  unfold cryptoHash
  refine Once.pre (P.pH _ _) fun s => ?_
  refine Once.pre (gl := false) (sim_absorbLanes P _ _ _ _) fun s => ?_
  have h := Once.forN (c := out) (fun i => 8 * i) (fun _ _ => True) (body := squeezeStep D out) (fun i => by omega)
    (fun i s _ => by
      unfold squeezeStep
      refine (Once.store64 out (8 * i) _).seq (k := 8 * (i + 1)) (fun _ _ => ?_) (by omega) (by omega)
      refine Once.branch ?_
      split
      · exact (P.pH s s).once.mono (fun _ _ h => h.elim) fun _ _ => trivial
      · exact trivial) 4 0 s trivial
  exact h.seq (Q := fun _ => True) (k := 32) (fun _ _ => trivial) (by omega) (by omega)

theorem Target.once_hash {t : Target} {f : Ptr → Ptr → Nat → CM Int} (h : t.hash = some f) (out inp : Ptr) (inlen : Nat) :
    Once (f out inp inlen) (InBuf out 32) fun _ => True := by
  unfold Target.hash at h
  rw [Option.map_eq_some_iff] at h
  obtain ⟨D, hD, rfl⟩ := h
  exact Opt.once_cryptoHash (Target.hashShape hD) _ _ _

end Model
