import Verif.C.Valid
import Verif.Proof.Runs
/-!
# Lemmas about memory contents and accesses
-/

namespace C

@[simp] theorem add_blk (p : Ptr) (n : Nat) : (p + n).blk = p.blk := by cases p; rfl
@[simp] theorem add_off (p : Ptr) (n : Nat) : (p + n).off = p.off + n := by cases p; rfl
theorem add_add (p : Ptr) (n m : Nat) : p + n + m = p + (n + m) := by
  show (⟨_, _⟩ : Ptr) = ⟨_, _⟩
  simp [Nat.add_assoc]
@[simp] theorem add_zero (p : Ptr) : p + 0 = p := rfl

@[ext] theorem St.ext {s t : St} (h : s.mem = t.mem) (h0 : s.s0 = t.s0) (h1 : s.s1 = t.s1) : s = t := by
  cases s; cases t; simp_all

@[simp] theorem length_bytesAt (s : St) (p : Ptr) (n : Nat) : (bytesAt s p n).length = n := by simp [bytesAt]

@[simp] theorem bytesAt_zero (s : St) (p : Ptr) : bytesAt s p 0 = [] := rfl

theorem getElem_bytesAt (s : St) (p : Ptr) (n i : Nat) (h : i < (bytesAt s p n).length) :
    (bytesAt s p n)[i] = s.mem p.blk (p.off + i) := by simp [bytesAt]

theorem getElem?_bytesAt (s : St) (p : Ptr) (n i : Nat) :
    (bytesAt s p n)[i]? = if i < n then some (s.mem p.blk (p.off + i)) else none := by
  by_cases h : i < n <;> simp [bytesAt, h]

theorem getD_bytesAt (s : St) (p : Ptr) {n i : Nat} (h : i < n) (d : Byte) :
    (bytesAt s p n).getD i d = s.mem p.blk (p.off + i) := by
  simp [List.getD, getElem_bytesAt, h]

theorem bytesAt_add (s : St) (p : Ptr) (n m : Nat) : bytesAt s p (n + m) = bytesAt s p n ++ bytesAt s (p + n) m := by
  apply List.ext_getElem
  · simp
  · intro i h1 h2
    simp only [getElem_bytesAt, List.getElem_append, length_bytesAt]
    split
    · rfl
    · simp only [add_off, add_blk]; congr 1; omega

theorem bytesAt_succ (s : St) (p : Ptr) (n : Nat) : bytesAt s p (n + 1) = bytesAt s p n ++ [s.mem p.blk (p.off + n)] := by
  rw [bytesAt_add]; rfl

theorem bytesAt_take (s : St) (p : Ptr) (n m : Nat) (h : m ≤ n) : (bytesAt s p n).take m = bytesAt s p m := by
  obtain ⟨k, rfl⟩ := Nat.exists_eq_add_of_le h
  rw [bytesAt_add, List.take_left' (by simp)]

theorem bytesAt_drop (s : St) (p : Ptr) (n m : Nat) : (bytesAt s p n).drop m = bytesAt s (p + m) (n - m) := by
  by_cases h : m ≤ n
  · obtain ⟨k, rfl⟩ := Nat.exists_eq_add_of_le h
    rw [bytesAt_add, List.drop_left' (by simp)]
    congr 1; omega
  · rw [List.drop_eq_nil_of_le (by simp; omega), show n - m = 0 by omega, bytesAt_zero]

/-- The content depends only on the memory. -/
theorem bytesAt_congr {s t : St} (h : s.mem = t.mem) (p : Ptr) (n : Nat) : bytesAt s p n = bytesAt t p n := by
  simp [bytesAt, h]

@[simp] theorem putBytes_nil (s : St) (p : Ptr) : putBytes s p [] = s := by
  apply St.ext <;> simp only [putBytes]
  funext b o
  rw [if_neg]; simp

theorem putBytes_mem (s : St) (p : Ptr) (bs : List Byte) (b o : Nat) :
    (putBytes s p bs).mem b o =
      if b = p.blk ∧ p.off ≤ o ∧ o < p.off + bs.length then bs.getD (o - p.off) 0 else s.mem b o := rfl

@[simp] theorem putBytes_s0 (s : St) (p : Ptr) (bs : List Byte) : (putBytes s p bs).s0 = s.s0 := rfl
@[simp] theorem putBytes_s1 (s : St) (p : Ptr) (bs : List Byte) : (putBytes s p bs).s1 = s.s1 := rfl

theorem putBytes_append (s : St) (p : Ptr) (as bs : List Byte) :
    putBytes (putBytes s p as) (p + as.length) bs = putBytes s p (as ++ bs) := by
  refine St.ext (s := putBytes (putBytes s p as) (p + as.length) bs) (t := putBytes s p (as ++ bs)) ?_ rfl rfl
  funext b o
  simp only [putBytes_mem, add_blk, add_off, List.length_append]
  by_cases hb : b = p.blk
  · by_cases h1 : p.off ≤ o
    · by_cases h2 : o < p.off + as.length
      · rw [if_neg (by omega), if_pos (by omega), if_pos (by omega)]
        simp only [List.getD]
        rw [List.getElem?_append_left (by omega)]
      · by_cases h3 : o < p.off + as.length + bs.length
        · rw [if_pos (by omega), if_pos (by omega)]
          simp only [List.getD]
          rw [List.getElem?_append_right (by omega)]
          congr 2; omega
        · rw [if_neg (by omega), if_neg (by omega), if_neg (by omega)]
    · rw [if_neg (by omega), if_neg (by omega), if_neg (by omega)]
  · rw [if_neg (by simp [hb]), if_neg (by simp [hb]), if_neg (by simp [hb])]

theorem bytesAt_putBytes_same (s : St) (p : Ptr) (bs : List Byte) : bytesAt (putBytes s p bs) p bs.length = bs := by
  apply List.ext_getElem
  · simp
  · intro i h1 h2
    rw [getElem_bytesAt, putBytes_mem, if_pos (by omega)]
    simp [h2, Nat.add_sub_cancel_left]

theorem bytesAt_putBytes_same' (s : St) (p : Ptr) (bs : List Byte) {n : Nat} (h : bs.length = n) :
    bytesAt (putBytes s p bs) p n = bs := by subst h; exact bytesAt_putBytes_same s p bs

theorem bytesAt_putBytes_disjoint (s : St) (p : Ptr) (bs : List Byte) (q : Ptr) (n : Nat)
    (h : Disjoint q n p bs.length) : bytesAt (putBytes s p bs) q n = bytesAt s q n := by
  apply List.ext_getElem
  · simp
  · intro i h1 h2
    rw [getElem_bytesAt, getElem_bytesAt, putBytes_mem, if_neg]
    simp only [length_bytesAt] at h1
    unfold Disjoint at h
    omega

theorem Disjoint.symm {p q : Ptr} {n m : Nat} (h : Disjoint p n q m) : Disjoint q m p n := by
  unfold Disjoint at *; omega

theorem Disjoint.mono {p q : Ptr} {n m n' m' : Nat} (h : Disjoint p n q m) (hn : n' ≤ n) (hm : m' ≤ m) :
    Disjoint p n' q m' := by
  unfold Disjoint at *; omega

theorem Readable.mono {e : Env} {p : Ptr} {n m : Nat} (h : Readable e p n) (hm : m ≤ n) : Readable e p m :=
  fun i hi => h i (by omega)

theorem Readable.add {e : Env} {p : Ptr} {n m k : Nat} (h : Readable e p n) (hm : k + m ≤ n) : Readable e (p + k) m :=
  fun i hi => by
    have := h (k + i) (by omega)
    rw [← Nat.add_assoc] at this
    simpa only [add_off, add_blk] using this

theorem Writable.readable {e : Env} {p : Ptr} {n : Nat} (h : Writable e p n) : Readable e p n := fun i hi => (h i hi).1

theorem Writable.mono {e : Env} {p : Ptr} {n m : Nat} (h : Writable e p n) (hm : m ≤ n) : Writable e p m :=
  fun i hi => h i (by omega)

theorem Writable.add {e : Env} {p : Ptr} {n m k : Nat} (h : Writable e p n) (hm : k + m ≤ n) : Writable e (p + k) m :=
  fun i hi => by
    have := h (k + i) (by omega)
    rw [← Nat.add_assoc] at this
    simpa only [add_off, add_blk] using this

theorem Readable.canRead {e : Env} {p : Ptr} {n : Nat} (h : Readable e p n) : canRead e p n = true := by
  simp only [C.canRead, List.all_eq_true, List.mem_range]; exact h

theorem Writable.canWrite {e : Env} {p : Ptr} {n : Nat} (h : Writable e p n) : canWrite e p n = true := by
  simp only [C.canWrite, List.all_eq_true, List.mem_range]; exact fun i hi => (h i hi).2

theorem Aligned.ok {e : Env} {al n : Nat} {p : Ptr} (h : Aligned e al p n) (hn : 0 < n) : alignedOk e p al = true := by
  rcases h with h | h | h
  · omega
  · simp [alignedOk, h]
  · simp [alignedOk, h.2]

theorem aligned_one (e : Env) (p : Ptr) (n : Nat) : Aligned e 1 p n := Or.inr (Or.inr ⟨by decide, Nat.mod_one _⟩)

theorem aligned_zero (e : Env) (al : Nat) (p : Ptr) : Aligned e al p 0 := Or.inl rfl

theorem Aligned.tolerant {e : Env} (h : e.strict = false) (al : Nat) (p : Ptr) (n : Nat) : Aligned e al p n :=
  Or.inr (Or.inl h)

theorem Aligned.mono {e : Env} {al n m : Nat} {p : Ptr} (h : Aligned e al p n) (hm : m ≤ n) : Aligned e al p m :=
  h.imp_left fun h => by omega

theorem Aligned.mono' {e : Env} {al n m : Nat} {p : Ptr} (h : Aligned e al p n) (hm : n = 0 → m = 0) : Aligned e al p m :=
  h.imp_left hm

theorem Aligned.add {e : Env} {al n m k : Nat} {p : Ptr} (h : Aligned e al p n) (hk : k % al = 0) (hm : k + m ≤ n) :
    Aligned e al (p + k) m := by
  rcases h with h | h | h
  · exact Or.inl (by omega)
  · exact Or.inr (Or.inl h)
  · refine Or.inr (Or.inr ⟨h.1, ?_⟩)
    rw [add_blk, add_off, ← Nat.add_assoc, Nat.add_mod, h.2, hk]; simp

theorem Aligned.dvd {e : Env} {al al' n : Nat} {p : Ptr} (h : Aligned e al p n) (hd : al' ∣ al) : Aligned e al' p n := by
  rcases h with h | h | h
  · exact Or.inl h
  · exact Or.inr (Or.inl h)
  · refine Or.inr (Or.inr ⟨fun h0 => h.1 ?_, ?_⟩)
    · subst h0; exact Nat.zero_dvd.1 hd
    · exact Nat.mod_eq_zero_of_dvd (Nat.dvd_trans hd (Nat.dvd_of_mod_eq_zero h.2))

theorem runs_load {e : Env} {s : St} {al w : Nat} {p : Ptr} (hal : Aligned e al p w) (h : Readable e p w)
    (hw : 0 < w) :
    Runs (load al w p) e s (bytesAt s p w) s :=
  ⟨[.rd p w], by simp only [load, run, h.canRead, hal.ok hw, if_true, Out.cons]⟩

theorem runs_store {e : Env} {s : St} {al : Nat} {p : Ptr} {bs : List Byte} (hal : Aligned e al p bs.length)
    (h : Writable e p bs.length) (hw : 0 < bs.length) : Runs (store al p bs) e s () (putBytes s p bs) :=
  ⟨[.wr p bs.length], by simp only [store, run, h.readable.canRead, hal.ok hw, h.canWrite, if_true, Out.cons]⟩

theorem isUB_load {e : Env} {s : St} {al w : Nat} {p : Ptr} (h : ¬ Readable e p w) : IsUB (load al w p) e s := by
  refine ⟨.oob p w, ?_⟩
  have : canRead e p w = false := by
    rw [Bool.eq_false_iff]
    intro h'
    apply h
    simp only [C.canRead, List.all_eq_true, List.mem_range] at h'
    exact h'
  simp [load, run, this]

theorem runs_load8 {e : Env} {s : St} {p : Ptr} (h : e.rd p.blk p.off = true) :
    Runs (load8 p) e s (s.mem p.blk p.off) s := by
  refine runs_bind (runs_load (aligned_one ..) (fun i hi => ?_) (by decide)) (runs_pure _ _ _)
  have : i = 0 := by omega
  subst this; exact h

theorem runs_load8_at {e : Env} {s : St} {p : Ptr} {n i : Nat} (h : Readable e p n) (hi : i < n) :
    Runs (load8 (p + i)) e s ((bytesAt s p n).getD i 0) s := by
  rw [getD_bytesAt s p hi]
  exact runs_load8 (h i hi)

theorem runs_store8 {e : Env} {s : St} {p : Ptr} {b : Byte} (h : Writable e p 1) :
    Runs (store8 p b) e s () (putBytes s p [b]) := runs_store (aligned_one ..) h (by simp)

theorem runs_load64 {e : Env} {s : St} {p : Ptr} (hal : Aligned e 8 p 8) (h : Readable e p 8) :
    Runs (load64 p) e s (le64 (bytesAt s p 8)) s :=
  runs_bind (runs_load hal h (by decide)) (runs_pure _ _ _)

@[simp] theorem length_toLe64 (x : BitVec 64) : (toLe64 x).length = 8 := by simp [toLe64]

theorem runs_store64 {e : Env} {s : St} {p : Ptr} {x : BitVec 64} (hal : Aligned e 8 p 8) (h : Writable e p 8) :
    Runs (store64 p x) e s () (putBytes s p (toLe64 x)) := runs_store (by simpa using hal) (by simpa using h) (by simp)

/-- Value read through a `Src`. -/
def Src.bytes (src : Src) (s : St) (n : Nat) : List Byte :=
  match src with
  | .ext p => bytesAt s p n
  | .loc bs => bs.take n

/-- The first `n` bytes of the source may be read. -/
def Src.Ok (src : Src) (e : Env) (n : Nat) : Prop :=
  match src with
  | .ext p => Readable e p n
  | .loc bs => n ≤ bs.length

theorem Src.length_bytes {src : Src} {e : Env} {s : St} {n : Nat} (h : src.Ok e n) : (src.bytes s n).length = n := by
  cases src with
  | ext p => simp [Src.bytes]
  | loc bs => simp only [Src.bytes, Src.Ok, List.length_take] at *; omega

theorem runs_get {src : Src} {e : Env} {s : St} {n i : Nat} (h : src.Ok e n) (hi : i < n) :
    Runs (src.get i) e s ((src.bytes s n).getD i 0) s := by
  cases src with
  | ext p => exact runs_load8_at h hi
  | loc bs =>
    simp only [Src.get, Src.Ok, Src.bytes] at *
    rw [if_pos (by omega)]
    refine runs_eq (runs_pure _ _ _) ?_
    simp [List.getD, hi]

/-- `bytesAt` looks only at the memory. -/
theorem bytesAt_mem_congr {s t : St} (h : s.mem = t.mem) (p : Ptr) (n : Nat) : bytesAt s p n = bytesAt t p n := by
  simp only [bytesAt, h]

theorem putBytes_mem_congr {s t : St} (h : s.mem = t.mem) {p : Ptr} {bs : List Byte} :
    (putBytes s p bs).mem = (putBytes t p bs).mem := by
  simp only [putBytes, h]

end C
