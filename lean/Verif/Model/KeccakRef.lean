import Verif.Model.RefMode
/-!
# Model of `ref/KeccakP-400-reference.c` (same file in `isapk128av20/ref`, `isapk128v20/ref`, `isapxv20/ref/lib`)

Little-endian branch (`PLATFORM_BYTE_ORDER == IS_LITTLE_ENDIAN`).  The big-endian branch calls functions
(`fromBytesToWords`) that are not defined in the file.
-/

namespace Model.KeccakRef
open C

/-- `tKeccakLane A[25]`: `ref/KeccakP-400-reference.c` lines 22, 25 -/
abbrev Lanes := Vector (BitVec 16) 25

/-- `index(x, y)`: line 26 -/
def index (x y : Nat) : Nat := x % 5 + 5 * (y % 5)

theorem index_lt (x y : Nat) : index x y < 25 := by unfold index; omega

/-- `A[index(x,y)]`: `ref/KeccakP-400-reference.c` line 26 -/
def get (A : Lanes) (x y : Nat) : BitVec 16 := A[index x y]'(index_lt x y)
/-- `A[index(x,y)] = v`: `ref/KeccakP-400-reference.c` line 26 -/
def set (A : Lanes) (x y : Nat) (v : BitVec 16) : Lanes := A.set (index x y) v (index_lt x y)

/-- `for(x=0; x<5; x++) for(y=0; y<5; y++)`: `ref/KeccakP-400-reference.c` lines 175-176, 184-185, 193-196 -/
def forXY (f : Nat → Nat → Lanes → Lanes) (A : Lanes) : Lanes :=
  (List.range 5).foldl (fun A x => (List.range 5).foldl (fun A y => f x y A) A) A

/-- `KeccakRoundConstants`: lines 30-52 -/
def roundConstants : List (BitVec 16) :=
  [0x0001, 0x8082, 0x808a, 0x8000, 0x808b, 0x0001, 0x8081, 0x8009, 0x008a, 0x0088,
   0x8009, 0x000a, 0x808b, 0x008b, 0x8089, 0x8003, 0x8002, 0x0080, 0x800a, 0x000a]

/-- `KeccakRhoOffsets`: lines 56-59 -/
def rhoOffsets : List Nat :=
  [0, 1, 14, 12, 11, 4, 12, 6, 7, 4, 3, 10, 11, 9, 7, 9, 13, 15, 5, 8, 2, 2, 13, 8, 14]

/-- `ROL16`: line 161 (the shifts happen in `int` and are truncated to 16 bits on assignment). -/
def rol16 (a : BitVec 16) (offset : Nat) : BitVec 16 :=
  if offset ≠ 0 then (a <<< offset) ^^^ (a >>> (16 - offset)) else a

/-- `theta`: lines 163-178 -/
def theta (A : Lanes) : Lanes :=
  let C : List (BitVec 16) := (List.range 5).map fun x =>
    (List.range 5).foldl (fun c y => c ^^^ get A x y) 0
  let D : List (BitVec 16) := (List.range 5).map fun x =>
    rol16 (C.getD ((x + 1) % 5) 0) 1 ^^^ C.getD ((x + 4) % 5) 0
  forXY (fun x y A => set A x y (get A x y ^^^ D.getD x 0)) A

/-- `rho`: lines 180-186 -/
def rho (A : Lanes) : Lanes :=
  forXY (fun x y A => set A x y (rol16 (get A x y) (rhoOffsets.getD (index x y) 0))) A

/-- `pi`: lines 188-197 -/
def pi (A : Lanes) : Lanes :=
  let tempA := A
  forXY (fun x y A => set A (0 * x + 1 * y) (2 * x + 3 * y) (get tempA x y)) A

/-- `chi`: lines 199-210 -/
def chi (A : Lanes) : Lanes :=
  (List.range 5).foldl (fun A y =>
    let C : List (BitVec 16) := (List.range 5).map fun x => get A x y ^^^ (~~~ get A (x + 1) y &&& get A (x + 2) y)
    (List.range 5).foldl (fun A x => set A x y (C.getD x 0)) A) A

/-- `iota`: lines 212-215 -/
def iota (A : Lanes) (indexRound : Nat) : Lanes := set A 0 0 (get A 0 0 ^^^ roundConstants.getD indexRound 0)

/-- `KeccakP400Round`: lines 152-159 -/
def round (indexRound : Nat) (A : Lanes) : Lanes := iota (chi (pi (rho (theta A)))) indexRound

/-- The loop of `KeccakP400OnWords`: lines 145-150, `n` iterations from `i`. -/
def roundLoop : (i n : Nat) → Lanes → Lanes
  | _, 0, A => A
  | i, n + 1, A => roundLoop (i + 1) n (round i A)

/-- `(tKeccakLane*)state` on a little-endian machine.  `ref/KeccakP-400-reference.c` line 122. -/
def words (S : List Byte) : Lanes := Vector.ofFn fun i => (S.getD (2 * i.val + 1) 0) ++ (S.getD (2 * i.val) 0)

/-- The bytes of the lanes on a little-endian machine.  `ref/KeccakP-400-reference.c` line 122. -/
def unwords (A : Lanes) : List Byte := A.toList.flatMap fun (l : BitVec 16) => [l.setWidth 8, (l >>> 8).setWidth 8]

/-- `KeccakP400_Permute_Nrounds`: lines 115-128.  There is no assertion; for `nrounds > 20` the unsigned subtraction
`maxNrRounds-nrRounds` wraps and the loop body is not executed. -/
def permute (S : List Byte) (nrounds : Nat) : CM (List Byte) :=
  pure (unwords (if nrounds ≤ 20 then roundLoop (20 - nrounds) nrounds (words S) else words S))

/-- `isapk128av20/ref/isap.h` -/
def cfgK128a : Ref.Cfg := { stateSz := 50, rH := 144, sH := 16, sB := 1, sE := 8, sK := 8, permute := permute }
/-- `isapk128v20/ref/isap.h` -/
def cfgK128 : Ref.Cfg := { stateSz := 50, rH := 144, sH := 20, sB := 12, sE := 12, sK := 12, permute := permute }

end Model.KeccakRef
