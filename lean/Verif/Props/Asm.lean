import Verif.Proof.KeccakAsmCalls
/-!
# C40: the assembler routines for ARM

The routines of `KeccakP-400-armv6m-le-gcc.s` and `KeccakP-400-armv7m-le-gcc.s`, executed instruction by instruction on the processor
of `C/Thumb.lean`: called with its arguments in registers (and on the stack) as the procedure call standard says, each routine returns
to its caller, has the effect that its C declaration promises, preserves the registers that it has to preserve, and changes no byte of
memory outside its output and the stated part of the stack.  What the caller has to provide is in `Spec/AsmCall.lean`.
-/

namespace Props
open Spec C.Thumb Model.KeccakAsm

/-! ## A concrete machine state

The state at `0x20000000`, data at `0x20000100`, the stack pointer at `0x20001000`, the table of constants at `0x08000000`. -/

namespace AsmSample

/-- Memory with a table at `0x08000000` and some data elsewhere. -/
def mem (tab : List (BitVec 16)) (a : BitVec 32) : Byte :=
  if 0x08000000 ≤ a.toNat ∧ a.toNat < 0x08000000 + 2 * tab.length then
    ((tab.getD ((a.toNat - 0x08000000) / 2) 0) >>> (8 * (a.toNat % 2))).setWidth 8
  else if a = 0x20001000 then 7 else if 0x20001000 ≤ a.toNat then 0 else a.setWidth 8 * 3

/-- Everything may be read, nothing below `0x20000000` may be written. -/
def plat (strict : Bool) : Plat := ⟨fun _ => true, fun a => decide (0x20000000 ≤ a.toNat), strict⟩

/-- Registers: the first four are arguments. -/
def reg (a0 a1 a2 a3 : BitVec 32) : Reg → BitVec 32
  | .r0 => a0 | .r1 => a1 | .r2 => a2 | .r3 => a3 | .sp => 0x20001000 | .lr => 0x08000101 | _ => 5

/-- Machine state at a call. -/
def mach (tab : List (BitVec 16)) (a0 a1 a2 a3 : BitVec 32) : Mach := ⟨reg a0 a1 a2 a3, mem tab, false, false⟩

theorem load (s : Bool) (p : BitVec 32) (n : Nat) : CanLoad (plat s) p n := fun _ _ => rfl

theorem store (s : Bool) {p : BitVec 32} {n : Nat} (h : 0x20000000 ≤ p.toNat) (hn : p.toNat + n ≤ 2 ^ 32) : CanStore (plat s) p n := by
  rintro a ⟨i, hi, rfl⟩
  refine decide_eq_true ?_
  rw [BitVec.toNat_add, BitVec.toNat_ofNat, Nat.mod_eq_of_lt (a := i) (by omega), Nat.mod_eq_of_lt (by omega)]
  omega

theorem areas (s : Bool) (tab : List (BitVec 16)) (h : tab.length = 21)
    (ht : ∀ i < tab.length, get16 (mem tab) (0x08000000 + BitVec.ofNat 32 (2 * i)) = tab.getD i 0) (frame : Nat) (hf : frame = 96 ∨ frame = 100)
    (a1 a2 a3 : BitVec 32) : Areas (plat s) (mach tab 0x20000000 a1 a2 a3) 0x20000000 frame 0x08000000 tab where
  stateRd := load _ _ _
  stateWr := store _ (by decide) (by decide)
  stateAl := by decide
  stackRd := load _ _ _
  stackWr := by
    rcases hf with rfl | rfl
    · exact store (p := 0x20001000 - BitVec.ofNat 32 96) _ (by decide) (by decide)
    · exact store (p := 0x20001000 - BitVec.ofNat 32 100) _ (by decide) (by decide)
  stackAl := by show (0x20001000 : BitVec 32).toNat % 4 = 0; decide
  tableRd := load _ _ _
  tableAl := by decide
  tableIs := ht
  stateStack := by
    rcases hf with rfl | rfl
    · exact sep_of_le (q := 0x20001000 - BitVec.ofNat 32 96) (by decide) (by decide)
    · exact sep_of_le (q := 0x20001000 - BitVec.ofNat 32 100) (by decide) (by decide)
  tableState := sep_of_le (by rw [h]; decide) (by decide)
  tableStack := by
    rcases hf with rfl | rfl
    · exact sep_of_le (q := 0x20001000 - BitVec.ofNat 32 96) (by rw [h]; decide) (by decide)
    · exact sep_of_le (q := 0x20001000 - BitVec.ofNat 32 100) (by rw [h]; decide) (by decide)

theorem addArgs (s : Bool) : AddArgs (plat s) 0x20001000 0x20000008 0x20000103 7 where
  stateRd := load _ _ _
  stateWr := store _ (by decide) (by decide)
  dataRd := load _ _ _
  stackRd := load _ _ _
  stackWr := store _ (by decide) (by decide)
  stackAl := by decide
  stateData := sep_of_le (by decide) (by decide)
  stateStack := sep_of_le (by decide) (by decide)
  dataStack := sep_of_le (by decide) (by decide)

theorem copyArgs (s : Bool) : CopyArgs (plat s) 0x20000008 0x20000103 7 where
  dstWr := store _ (by decide) (by decide)
  srcRd := load _ _ _
  sep := sep_of_le (by decide) (by decide)

theorem copyArgs' (s : Bool) : CopyArgs (plat s) 0x20000103 0x20000008 7 where
  dstWr := store _ (by decide) (by decide)
  srcRd := load _ _ _
  sep := (sep_of_le (by decide) (by decide)).symm

theorem extractAddArgs (s : Bool) : ExtractAddArgs (plat s) 0x20001000 0x20000008 0x20000103 0x20000103 7 where
  stateRd := load _ _ _
  inRd := load _ _ _
  outWr := store _ (by decide) (by decide)
  stackRd := load _ _ _
  stackWr := store _ (by decide) (by decide)
  stackAl := by decide
  stateOut := sep_of_le (by decide) (by decide)
  inOut := .inl rfl
  outStack := sep_of_le (by decide) (by decide)
  stateStack := sep_of_le (by decide) (by decide)
  inStack := sep_of_le (by decide) (by decide)

end AsmSample

section
variable {P : Plat} {M : Mach} {p q d o t : BitVec 32} {n : Nat}

/-! ## `KeccakP-400-armv6m-le-gcc.s` -/

section
variable {adr : V6.Label → BitVec 32}

/-- `KeccakP400_Permute_Nrounds(state, n)` applies the last `n` rounds of Keccak-p[400], for 1 to 20 rounds. -/
theorem C40_armv6m_permute_nrounds (h0 : 0 < n) (hn : n ≤ 20) (a0 : M.reg .r0 = p) (a1 : M.reg .r1 = BitVec.ofNat 32 n)
    (ht : adr .roundConstants = t + BitVec.ofNat 32 40) (A : Areas P M p 100 t V6.table) :
    ∃ M', Returns P adr V6.prog .permuteNrounds M M' ∧ bytes M'.mem p 50 = Keccak.perm n (bytes M.mem p 50) ∧ CalleeSaved M.reg M'.reg ∧
      Only (fun x => In p 50 x ∨ In (M.reg .sp - BitVec.ofNat 32 100) 100 x) M.mem M'.mem :=
  let ⟨M', r, l, b, o⟩ := V6.returns_permuteNrounds h0 hn a0 a1 ht A
  ⟨M', r, perm_bytes l, b.calleeSaved, o⟩

example : ∃ M', Returns (AsmSample.plat true) (fun _ => 0x08000028) V6.prog .permuteNrounds (AsmSample.mach V6.table 0x20000000 7 0 0) M' ∧
    bytes M'.mem 0x20000000 50 = Keccak.perm 7 (bytes (AsmSample.mem V6.table) 0x20000000 50) :=
  let ⟨M', r, l, _⟩ := C40_armv6m_permute_nrounds (n := 7) (by decide) (by decide) rfl rfl (adr := fun _ => 0x08000028) (t := 0x08000000) rfl (AsmSample.areas true V6.table rfl (by decide +kernel) 100 (by decide) 7 0 0)
  ⟨M', r, l⟩

/-- `KeccakP400_Permute_20rounds(state)` applies all 20 rounds. -/
theorem C40_armv6m_permute_20rounds (a0 : M.reg .r0 = p) (ht : adr .roundConstants20 = t) (A : Areas P M p 100 t V6.table) :
    ∃ M', Returns P adr V6.prog .permute20rounds M M' ∧ bytes M'.mem p 50 = Keccak.perm 20 (bytes M.mem p 50) ∧ CalleeSaved M.reg M'.reg ∧
      Only (fun x => In p 50 x ∨ In (M.reg .sp - BitVec.ofNat 32 100) 100 x) M.mem M'.mem :=
  let ⟨M', r, l, b, o⟩ := V6.returns_permute20rounds a0 ht A
  ⟨M', r, perm_bytes l, b.calleeSaved, o⟩

example : ∃ M', Returns (AsmSample.plat true) (fun _ => 0x08000000) V6.prog .permute20rounds (AsmSample.mach V6.table 0x20000000 0 0 0) M' ∧
    bytes M'.mem 0x20000000 50 = Keccak.perm 20 (bytes (AsmSample.mem V6.table) 0x20000000 50) :=
  let ⟨M', r, l, _⟩ := C40_armv6m_permute_20rounds rfl (adr := fun _ => 0x08000000) (t := 0x08000000) rfl (AsmSample.areas true V6.table rfl (by decide +kernel) 100 (by decide) 0 0 0)
  ⟨M', r, l⟩

/-- `KeccakP400_Initialize(state)` sets the 50 bytes to zero. -/
theorem C40_armv6m_initialize (a0 : M.reg .r0 = p) (hw : CanStore P p 50) (hal : p.toNat % 4 = 0) :
    ∃ M', Returns P adr V6.prog .init M M' ∧ bytes M'.mem p 50 = List.replicate 50 0 ∧ CalleeSaved M.reg M'.reg ∧ Only (In p 50) M.mem M'.mem :=
  returns_init (k := target V6.prog .init |>.drop 9) rfl a0 hw hal

example : ∃ M', Returns (AsmSample.plat true) (fun _ => 0) V6.prog .init (AsmSample.mach [] 0x20000000 9 9 9) M' ∧ bytes M'.mem 0x20000000 50 = List.replicate 50 0 :=
  let ⟨M', r, l, _⟩ := C40_armv6m_initialize rfl (AsmSample.store true (by decide) (by decide)) (by decide)
  ⟨M', r, l⟩

/-- `KeccakP400_StaticInitialize()` does nothing. -/
theorem C40_armv6m_static_initialize  :
    Returns P adr V6.prog .staticInitialize M M :=
  ⟨1, rfl⟩

example : Returns (AsmSample.plat true) (fun _ => 0) V6.prog .staticInitialize (AsmSample.mach [] 1 2 3 4) (AsmSample.mach [] 1 2 3 4) :=
  C40_armv6m_static_initialize

/-- `KeccakP400_AddByte(state, data, offset)` adds the byte `data` to the byte at `offset`. -/
theorem C40_armv6m_add_byte (a0 : M.reg .r0 + M.reg .r2 = q) (hr : CanLoad P q 1) (hw : CanStore P q 1) :
    ∃ M', Returns P adr V6.prog .addByte M M' ∧ M'.mem q = M.mem q ^^^ (M.reg .r1).setWidth 8 ∧ CalleeSaved M.reg M'.reg ∧
      Only (In q 1) M.mem M'.mem :=
  returns_addByte (k := target V6.prog .addByte |>.drop 4) rfl a0 (hr _ (in_self q)) (hw _ (in_self q))

example : ∃ M', Returns (AsmSample.plat true) (fun _ => 0) V6.prog .addByte (AsmSample.mach [] 0x20000000 0x1FF 49 9) M' ∧
    M'.mem 0x20000031 = AsmSample.mem [] 0x20000031 ^^^ 0xFF :=
  let ⟨M', r, l, _⟩ := C40_armv6m_add_byte rfl (AsmSample.load _ _ _) (AsmSample.store true (by decide) (by decide))
  ⟨M', r, l⟩

/-- `KeccakP400_AddBytes(state, data, offset, n)` adds `n` bytes of data to the bytes from `offset` on, for every `n`. -/
theorem C40_armv6m_add_bytes (hn : n < 2 ^ 32) (a0 : M.reg .r0 + M.reg .r2 = q) (a1 : M.reg .r1 = d)
    (a3 : M.reg .r3 = BitVec.ofNat 32 n) (A : AddArgs P (M.reg .sp) q d n) :
    ∃ M', Returns P adr V6.prog .addBytes M M' ∧ bytes M'.mem q n = List.zipWith (· ^^^ ·) (bytes M.mem q n) (bytes M.mem d n) ∧
      CalleeSaved M.reg M'.reg ∧ Only (fun x => In q n x ∨ In (M.reg .sp - BitVec.ofNat 32 8) 8 x) M.mem M'.mem :=
  returns_addBytes (lp := .addBytesLoop) (ex := .addBytesExit) (k := target V6.prog .addBytesLoop |>.drop 7)
    (k' := target V6.prog .addBytesExit |>.drop 1) rfl rfl rfl hn a0 a1 a3 A

example : ∃ M', Returns (AsmSample.plat true) (fun _ => 0) V6.prog .addBytes (AsmSample.mach [] 0x20000000 0x20000103 8 7) M' ∧
    bytes M'.mem 0x20000008 7 = List.zipWith (· ^^^ ·) (bytes (AsmSample.mem []) 0x20000008 7) (bytes (AsmSample.mem []) 0x20000103 7) :=
  let ⟨M', r, l, _⟩ := C40_armv6m_add_bytes (by decide) rfl rfl rfl (AsmSample.addArgs true)
  ⟨M', r, l⟩

/-- `KeccakP400_OverwriteBytes(state, data, offset, n)` copies `n` bytes of data to `offset`. -/
theorem C40_armv6m_overwrite_bytes (hn : n < 2 ^ 32) (a0 : M.reg .r0 + M.reg .r2 = q) (a1 : M.reg .r1 = d)
    (a3 : M.reg .r3 = BitVec.ofNat 32 n) (A : CopyArgs P q d n) :
    ∃ M', Returns P adr V6.prog .overwriteBytes M M' ∧ bytes M'.mem q n = bytes M.mem d n ∧ CalleeSaved M.reg M'.reg ∧
      Only (In q n) M.mem M'.mem :=
  returns_copyBytes (lp := .overwriteBytesLoop) (ex := .overwriteBytesExit) (.inl ⟨rfl, rfl⟩)
    (k := target V6.prog .overwriteBytesExit |>.drop 1) (k' := target V6.prog .overwriteBytesExit |>.drop 1) rfl rfl rfl hn a0 a1 a3 A

example : ∃ M', Returns (AsmSample.plat true) (fun _ => 0) V6.prog .overwriteBytes (AsmSample.mach [] 0x20000000 0x20000103 8 7) M' ∧
    bytes M'.mem 0x20000008 7 = bytes (AsmSample.mem []) 0x20000103 7 :=
  let ⟨M', r, l, _⟩ := C40_armv6m_overwrite_bytes (by decide) rfl rfl rfl (AsmSample.copyArgs true)
  ⟨M', r, l⟩

/-- `KeccakP400_ExtractBytes(state, data, offset, n)` copies `n` bytes from `offset` to `data`. -/
theorem C40_armv6m_extract_bytes (hn : n < 2 ^ 32) (a0 : M.reg .r0 + M.reg .r2 = d) (a1 : M.reg .r1 = q)
    (a3 : M.reg .r3 = BitVec.ofNat 32 n) (A : CopyArgs P q d n) :
    ∃ M', Returns P adr V6.prog .extractBytes M M' ∧ bytes M'.mem q n = bytes M.mem d n ∧ CalleeSaved M.reg M'.reg ∧
      Only (In q n) M.mem M'.mem :=
  returns_copyBytes (lp := .extractBytesLoop) (ex := .extractBytesExit) (.inr ⟨rfl, rfl⟩)
    (k := target V6.prog .extractBytesExit |>.drop 1) (k' := target V6.prog .extractBytesExit |>.drop 1) rfl rfl rfl hn a1 a0 a3 A

example : ∃ M', Returns (AsmSample.plat true) (fun _ => 0) V6.prog .extractBytes (AsmSample.mach [] 0x20000000 0x20000103 8 7) M' ∧
    bytes M'.mem 0x20000103 7 = bytes (AsmSample.mem []) 0x20000008 7 :=
  let ⟨M', r, l, _⟩ := C40_armv6m_extract_bytes (by decide) rfl rfl rfl (AsmSample.copyArgs' true)
  ⟨M', r, l⟩

/-- `KeccakP400_ExtractAndAddBytes(state, input, output, offset, n)` writes the sum of `n` bytes from `offset` on and `n` bytes of
input; the output may be the input. -/
theorem C40_armv6m_extract_and_add_bytes (hn : n < 2 ^ 32) (a0 : M.reg .r0 + M.reg .r3 = q) (a1 : M.reg .r1 = d) (a2 : M.reg .r2 = o)
    (a4 : get32 M.mem (M.reg .sp) = BitVec.ofNat 32 n) (A : ExtractAddArgs P (M.reg .sp) q d o n) :
    ∃ M', Returns P adr V6.prog .extractAndAddBytes M M' ∧ bytes M'.mem o n = List.zipWith (· ^^^ ·) (bytes M.mem q n) (bytes M.mem d n) ∧
      CalleeSaved M.reg M'.reg ∧ Only (fun x => In o n x ∨ In (M.reg .sp - BitVec.ofNat 32 8) 8 x) M.mem M'.mem :=
  returns_extractAdd (lp := .extractAndAddBytesLoop) (ex := .extractAndAddBytesExit) (k := target V6.prog .extractAndAddBytesExit)
    (k' := target V6.prog .extractAndAddBytesExit |>.drop 2) rfl rfl rfl rfl hn a0 a1 a2 a4 A

example : ∃ M', Returns (AsmSample.plat true) (fun _ => 0) V6.prog .extractAndAddBytes (AsmSample.mach [] 0x20000000 0x20000103 0x20000103 8) M' ∧
    bytes M'.mem 0x20000103 7 = List.zipWith (· ^^^ ·) (bytes (AsmSample.mem []) 0x20000008 7) (bytes (AsmSample.mem []) 0x20000103 7) :=
  let ⟨M', r, l, _⟩ := C40_armv6m_extract_and_add_bytes (n := 7) (by decide) rfl rfl rfl (by decide) (AsmSample.extractAddArgs true)
  ⟨M', r, l⟩

/-- `KeccakP400_OverwriteWithZeroes(state, n)` sets `n` bytes to zero. -/
theorem C40_armv6m_overwrite_with_zeroes (hn : n < 2 ^ 32) (a0 : M.reg .r0 = q) (a1 : M.reg .r1 = BitVec.ofNat 32 n) (hw : CanStore P q n) :
    ∃ M', Returns P adr V6.prog .overwriteWithZeroes M M' ∧ bytes M'.mem q n = List.replicate n 0 ∧ CalleeSaved M.reg M'.reg ∧
      Only (In q n) M.mem M'.mem :=
  returns_zeroDown (lp := .overwriteWithZeroesLoopBytes) (ex := .overwriteWithZeroesExit)
    (k := target V6.prog .overwriteWithZeroesExit |>.drop 1) (k' := target V6.prog .overwriteWithZeroesExit |>.drop 1) rfl rfl rfl hn a0 a1 hw

example : ∃ M', Returns (AsmSample.plat true) (fun _ => 0) V6.prog .overwriteWithZeroes (AsmSample.mach [] 0x20000000 11 0 0) M' ∧
    bytes M'.mem 0x20000000 11 = List.replicate 11 0 :=
  let ⟨M', r, l, _⟩ := C40_armv6m_overwrite_with_zeroes (n := 11) (by decide) rfl rfl (AsmSample.store true (by decide) (by decide))
  ⟨M', r, l⟩

end

/-! ## `KeccakP-400-armv7m-le-gcc.s` -/

section
variable {adr : V7.Label → BitVec 32}

/-- `KeccakP400_Permute_Nrounds(state, n)` applies the last `n` rounds of Keccak-p[400], for 1 to 20 rounds; unaligned word access must be enabled. -/
theorem C40_armv7m_permute_nrounds (h0 : 0 < n) (hn : n ≤ 20) (a0 : M.reg .r0 = p) (a1 : M.reg .r1 = BitVec.ofNat 32 n)
    (ht : adr .roundConstants = t + BitVec.ofNat 32 40) (hu : P.strict = false) (A : Areas P M p 96 t V7.table) :
    ∃ M', Returns P adr V7.prog .permuteNrounds M M' ∧ bytes M'.mem p 50 = Keccak.perm n (bytes M.mem p 50) ∧ CalleeSaved M.reg M'.reg ∧
      Only (fun x => In p 50 x ∨ In (M.reg .sp - BitVec.ofNat 32 96) 96 x) M.mem M'.mem :=
  let ⟨M', r, l, b, o⟩ := V7.returns_permuteNrounds h0 hn a0 a1 ht hu A
  ⟨M', r, perm_bytes l, b.calleeSaved, o⟩

example : ∃ M', Returns (AsmSample.plat false) (fun _ => 0x08000028) V7.prog .permuteNrounds (AsmSample.mach V7.table 0x20000000 7 0 0) M' ∧
    bytes M'.mem 0x20000000 50 = Keccak.perm 7 (bytes (AsmSample.mem V7.table) 0x20000000 50) :=
  let ⟨M', r, l, _⟩ := C40_armv7m_permute_nrounds (n := 7) (by decide) (by decide) rfl rfl (adr := fun _ => 0x08000028) (t := 0x08000000) rfl rfl (AsmSample.areas false V7.table rfl (by decide +kernel) 96 (by decide) 7 0 0)
  ⟨M', r, l⟩

/-- `KeccakP400_Permute_20rounds(state)` applies all 20 rounds; unaligned word access must be enabled. -/
theorem C40_armv7m_permute_20rounds (a0 : M.reg .r0 = p) (ht : adr .roundConstants20 = t) (hu : P.strict = false) (A : Areas P M p 96 t V7.table) :
    ∃ M', Returns P adr V7.prog .permute20rounds M M' ∧ bytes M'.mem p 50 = Keccak.perm 20 (bytes M.mem p 50) ∧ CalleeSaved M.reg M'.reg ∧
      Only (fun x => In p 50 x ∨ In (M.reg .sp - BitVec.ofNat 32 96) 96 x) M.mem M'.mem :=
  let ⟨M', r, l, b, o⟩ := V7.returns_permute20rounds a0 ht hu A
  ⟨M', r, perm_bytes l, b.calleeSaved, o⟩

example : ∃ M', Returns (AsmSample.plat false) (fun _ => 0x08000000) V7.prog .permute20rounds (AsmSample.mach V7.table 0x20000000 0 0 0) M' ∧
    bytes M'.mem 0x20000000 50 = Keccak.perm 20 (bytes (AsmSample.mem V7.table) 0x20000000 50) :=
  let ⟨M', r, l, _⟩ := C40_armv7m_permute_20rounds rfl (adr := fun _ => 0x08000000) (t := 0x08000000) rfl rfl (AsmSample.areas false V7.table rfl (by decide +kernel) 96 (by decide) 0 0 0)
  ⟨M', r, l⟩

/-- `KeccakP400_Initialize(state)` sets the 50 bytes to zero. -/
theorem C40_armv7m_initialize (a0 : M.reg .r0 = p) (hw : CanStore P p 50) (hal : p.toNat % 4 = 0) :
    ∃ M', Returns P adr V7.prog .init M M' ∧ bytes M'.mem p 50 = List.replicate 50 0 ∧ CalleeSaved M.reg M'.reg ∧ Only (In p 50) M.mem M'.mem :=
  returns_init (k := target V7.prog .init |>.drop 9) rfl a0 hw hal

example : ∃ M', Returns (AsmSample.plat true) (fun _ => 0) V7.prog .init (AsmSample.mach [] 0x20000000 9 9 9) M' ∧ bytes M'.mem 0x20000000 50 = List.replicate 50 0 :=
  let ⟨M', r, l, _⟩ := C40_armv7m_initialize rfl (AsmSample.store true (by decide) (by decide)) (by decide)
  ⟨M', r, l⟩

/-- `KeccakP400_StaticInitialize()` does nothing. -/
theorem C40_armv7m_static_initialize  :
    Returns P adr V7.prog .staticInitialize M M :=
  ⟨1, rfl⟩

example : Returns (AsmSample.plat true) (fun _ => 0) V7.prog .staticInitialize (AsmSample.mach [] 1 2 3 4) (AsmSample.mach [] 1 2 3 4) :=
  C40_armv7m_static_initialize

/-- `KeccakP400_AddByte(state, data, offset)` adds the byte `data` to the byte at `offset`. -/
theorem C40_armv7m_add_byte (a0 : M.reg .r0 + M.reg .r2 = q) (hr : CanLoad P q 1) (hw : CanStore P q 1) :
    ∃ M', Returns P adr V7.prog .addByte M M' ∧ M'.mem q = M.mem q ^^^ (M.reg .r1).setWidth 8 ∧ CalleeSaved M.reg M'.reg ∧
      Only (In q 1) M.mem M'.mem :=
  returns_addByte (k := target V7.prog .addByte |>.drop 4) rfl a0 (hr _ (in_self q)) (hw _ (in_self q))

example : ∃ M', Returns (AsmSample.plat true) (fun _ => 0) V7.prog .addByte (AsmSample.mach [] 0x20000000 0x1FF 49 9) M' ∧
    M'.mem 0x20000031 = AsmSample.mem [] 0x20000031 ^^^ 0xFF :=
  let ⟨M', r, l, _⟩ := C40_armv7m_add_byte rfl (AsmSample.load _ _ _) (AsmSample.store true (by decide) (by decide))
  ⟨M', r, l⟩

/-- `KeccakP400_AddBytes(state, data, offset, n)` adds `n` bytes of data to the bytes from `offset` on, for every `n`. -/
theorem C40_armv7m_add_bytes (hn : n < 2 ^ 32) (a0 : M.reg .r0 + M.reg .r2 = q) (a1 : M.reg .r1 = d)
    (a3 : M.reg .r3 = BitVec.ofNat 32 n) (A : AddArgs P (M.reg .sp) q d n) :
    ∃ M', Returns P adr V7.prog .addBytes M M' ∧ bytes M'.mem q n = List.zipWith (· ^^^ ·) (bytes M.mem q n) (bytes M.mem d n) ∧
      CalleeSaved M.reg M'.reg ∧ Only (fun x => In q n x ∨ In (M.reg .sp - BitVec.ofNat 32 8) 8 x) M.mem M'.mem :=
  returns_addBytes (lp := .addBytesLoop) (ex := .addBytesExit) (k := target V7.prog .addBytesLoop |>.drop 7)
    (k' := target V7.prog .addBytesExit |>.drop 1) rfl rfl rfl hn a0 a1 a3 A

example : ∃ M', Returns (AsmSample.plat true) (fun _ => 0) V7.prog .addBytes (AsmSample.mach [] 0x20000000 0x20000103 8 7) M' ∧
    bytes M'.mem 0x20000008 7 = List.zipWith (· ^^^ ·) (bytes (AsmSample.mem []) 0x20000008 7) (bytes (AsmSample.mem []) 0x20000103 7) :=
  let ⟨M', r, l, _⟩ := C40_armv7m_add_bytes (by decide) rfl rfl rfl (AsmSample.addArgs true)
  ⟨M', r, l⟩

/-- `KeccakP400_OverwriteBytes(state, data, offset, n)` copies `n` bytes of data to `offset`. -/
theorem C40_armv7m_overwrite_bytes (hn : n < 2 ^ 32) (a0 : M.reg .r0 + M.reg .r2 = q) (a1 : M.reg .r1 = d)
    (a3 : M.reg .r3 = BitVec.ofNat 32 n) (A : CopyArgs P q d n) :
    ∃ M', Returns P adr V7.prog .overwriteBytes M M' ∧ bytes M'.mem q n = bytes M.mem d n ∧ CalleeSaved M.reg M'.reg ∧
      Only (In q n) M.mem M'.mem :=
  returns_copyBytes (lp := .overwriteBytesLoop) (ex := .overwriteBytesExit) (.inl ⟨rfl, rfl⟩)
    (k := target V7.prog .overwriteBytesExit |>.drop 1) (k' := target V7.prog .overwriteBytesExit |>.drop 1) rfl rfl rfl hn a0 a1 a3 A

example : ∃ M', Returns (AsmSample.plat true) (fun _ => 0) V7.prog .overwriteBytes (AsmSample.mach [] 0x20000000 0x20000103 8 7) M' ∧
    bytes M'.mem 0x20000008 7 = bytes (AsmSample.mem []) 0x20000103 7 :=
  let ⟨M', r, l, _⟩ := C40_armv7m_overwrite_bytes (by decide) rfl rfl rfl (AsmSample.copyArgs true)
  ⟨M', r, l⟩

/-- `KeccakP400_ExtractBytes(state, data, offset, n)` copies `n` bytes from `offset` to `data`. -/
theorem C40_armv7m_extract_bytes (hn : n < 2 ^ 32) (a0 : M.reg .r0 + M.reg .r2 = d) (a1 : M.reg .r1 = q)
    (a3 : M.reg .r3 = BitVec.ofNat 32 n) (A : CopyArgs P q d n) :
    ∃ M', Returns P adr V7.prog .extractBytes M M' ∧ bytes M'.mem q n = bytes M.mem d n ∧ CalleeSaved M.reg M'.reg ∧
      Only (In q n) M.mem M'.mem :=
  returns_copyBytes (lp := .extractBytesLoop) (ex := .extractBytesExit) (.inr ⟨rfl, rfl⟩)
    (k := target V7.prog .extractBytesExit |>.drop 1) (k' := target V7.prog .extractBytesExit |>.drop 1) rfl rfl rfl hn a1 a0 a3 A

example : ∃ M', Returns (AsmSample.plat true) (fun _ => 0) V7.prog .extractBytes (AsmSample.mach [] 0x20000000 0x20000103 8 7) M' ∧
    bytes M'.mem 0x20000103 7 = bytes (AsmSample.mem []) 0x20000008 7 :=
  let ⟨M', r, l, _⟩ := C40_armv7m_extract_bytes (by decide) rfl rfl rfl (AsmSample.copyArgs' true)
  ⟨M', r, l⟩

/-- `KeccakP400_ExtractAndAddBytes(state, input, output, offset, n)` writes the sum of `n` bytes from `offset` on and `n` bytes of
input; the output may be the input. -/
theorem C40_armv7m_extract_and_add_bytes (hn : n < 2 ^ 32) (a0 : M.reg .r0 + M.reg .r3 = q) (a1 : M.reg .r1 = d) (a2 : M.reg .r2 = o)
    (a4 : get32 M.mem (M.reg .sp) = BitVec.ofNat 32 n) (A : ExtractAddArgs P (M.reg .sp) q d o n) :
    ∃ M', Returns P adr V7.prog .extractAndAddBytes M M' ∧ bytes M'.mem o n = List.zipWith (· ^^^ ·) (bytes M.mem q n) (bytes M.mem d n) ∧
      CalleeSaved M.reg M'.reg ∧ Only (fun x => In o n x ∨ In (M.reg .sp - BitVec.ofNat 32 8) 8 x) M.mem M'.mem :=
  returns_extractAdd (lp := .extractAndAddBytesLoop) (ex := .extractAndAddBytesExit) (k := target V7.prog .extractAndAddBytesExit)
    (k' := target V7.prog .extractAndAddBytesExit |>.drop 2) rfl rfl rfl rfl hn a0 a1 a2 a4 A

example : ∃ M', Returns (AsmSample.plat true) (fun _ => 0) V7.prog .extractAndAddBytes (AsmSample.mach [] 0x20000000 0x20000103 0x20000103 8) M' ∧
    bytes M'.mem 0x20000103 7 = List.zipWith (· ^^^ ·) (bytes (AsmSample.mem []) 0x20000008 7) (bytes (AsmSample.mem []) 0x20000103 7) :=
  let ⟨M', r, l, _⟩ := C40_armv7m_extract_and_add_bytes (n := 7) (by decide) rfl rfl rfl (by decide) (AsmSample.extractAddArgs true)
  ⟨M', r, l⟩

/-- `KeccakP400_OverwriteWithZeroes(state, n)` sets `n` bytes to zero. -/
theorem C40_armv7m_overwrite_with_zeroes (hn : n < 2 ^ 32) (a0 : M.reg .r0 = q) (a1 : M.reg .r1 = BitVec.ofNat 32 n) (hw : CanStore P q n) (hal : P.strict = true → q.toNat % 4 = 0) :
    ∃ M', Returns P adr V7.prog .overwriteWithZeroes M M' ∧ bytes M'.mem q n = List.replicate n 0 ∧ CalleeSaved M.reg M'.reg ∧
      Only (In q n) M.mem M'.mem :=
  returns_zeroUp (lw := .overwriteWithZeroesLoop2Lanes) (bl := .overwriteWithZeroesBytes) (lb := .overwriteWithZeroesLoopBytes)
    (ex := .overwriteWithZeroesExit) (k := target V7.prog .overwriteWithZeroesExit |>.drop 1) rfl rfl rfl rfl rfl hn a0 a1 hw hal

example : ∃ M', Returns (AsmSample.plat true) (fun _ => 0) V7.prog .overwriteWithZeroes (AsmSample.mach [] 0x20000000 11 0 0) M' ∧
    bytes M'.mem 0x20000000 11 = List.replicate 11 0 :=
  let ⟨M', r, l, _⟩ := C40_armv7m_overwrite_with_zeroes (n := 11) (by decide) rfl rfl (AsmSample.store true (by decide) (by decide)) (by decide)
  ⟨M', r, l⟩

/-- The permutation of the second file loads words from addresses that are not multiples of 4 (`xor5D`, line 68): where such loads
fault, the routine does. -/
theorem C40_armv7m_needs_unaligned : Areas (AsmSample.plat true) (AsmSample.mach V7.table 0x20000000 12 0 0) 0x20000000 96 0x08000000 V7.table ∧
    ∃ k, steps (AsmSample.plat true) (fun _ => 0x08000028) V7.prog k
      (.run (target V7.prog .permuteNrounds) (AsmSample.mach V7.table 0x20000000 12 0 0)) = .fault :=
  ⟨AsmSample.areas true V7.table rfl (by decide +kernel) 96 (by decide) 12 0 0, 24, rfl⟩

end

end

#print axioms C40_armv6m_permute_nrounds
#print axioms C40_armv6m_permute_20rounds
#print axioms C40_armv6m_initialize
#print axioms C40_armv6m_static_initialize
#print axioms C40_armv6m_add_byte
#print axioms C40_armv6m_add_bytes
#print axioms C40_armv6m_overwrite_bytes
#print axioms C40_armv6m_extract_bytes
#print axioms C40_armv6m_extract_and_add_bytes
#print axioms C40_armv6m_overwrite_with_zeroes
#print axioms C40_armv7m_permute_nrounds
#print axioms C40_armv7m_permute_20rounds
#print axioms C40_armv7m_initialize
#print axioms C40_armv7m_static_initialize
#print axioms C40_armv7m_add_byte
#print axioms C40_armv7m_add_bytes
#print axioms C40_armv7m_overwrite_bytes
#print axioms C40_armv7m_extract_bytes
#print axioms C40_armv7m_extract_and_add_bytes
#print axioms C40_armv7m_overwrite_with_zeroes
#print axioms C40_armv7m_needs_unaligned

end Props
