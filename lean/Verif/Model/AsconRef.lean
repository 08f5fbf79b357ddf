import Verif.Model.RefMode
import Verif.Spec.Ascon
/-!
# Model of `ref/Ascon-reference.c` (same file in `isapa128av20/ref`, `isapa128v20/ref`, `isapxv20/ref/lib`)

`Spec.Ascon.State` is used as a plain container of five 64-bit words.
-/

namespace Model.AsconRef
open C
open Spec.Ascon (State)

/-- `ROTR(x,n)`: line 11 -/
def rotr (x : BitVec 64) (n : Nat) : BitVec 64 := (x >>> n) ||| (x <<< (64 - n))

/-- `load64`: lines 15-20 -/
def load64 (S : List Byte) : BitVec 64 :=
  (List.range 8).foldl (fun x i => x ||| ((S.getD i 0).setWidth 64 <<< (56 - i * 8))) 0

/-- `store64`: lines 24-28 -/
def store64 (x : BitVec 64) : List Byte :=
  (List.range 8).map fun i => (x >>> (56 - i * 8)).setWidth 8

/-- Loop body of `Ascon_Permute_Nrounds`: lines 72-86 -/
def round (i : Nat) (s : State) : State :=
  let ⟨x0, x1, x2, x3, x4⟩ := s
  let x2 := x2 ^^^ (((0xf - BitVec.ofNat 64 i) <<< 4) ||| BitVec.ofNat 64 i)
  let x0 := x0 ^^^ x4; let x4 := x4 ^^^ x3; let x2 := x2 ^^^ x1
  let t0 := x0; let t1 := x1; let t2 := x2; let t3 := x3; let t4 := x4
  let t0 := ~~~ t0; let t1 := ~~~ t1; let t2 := ~~~ t2; let t3 := ~~~ t3; let t4 := ~~~ t4
  let t0 := t0 &&& x1; let t1 := t1 &&& x2; let t2 := t2 &&& x3; let t3 := t3 &&& x4; let t4 := t4 &&& x0
  let x0 := x0 ^^^ t1; let x1 := x1 ^^^ t2; let x2 := x2 ^^^ t3; let x3 := x3 ^^^ t4; let x4 := x4 ^^^ t0
  let x1 := x1 ^^^ x0; let x0 := x0 ^^^ x4; let x3 := x3 ^^^ x2; let x2 := ~~~ x2
  let x0 := x0 ^^^ (rotr x0 19 ^^^ rotr x0 28)
  let x1 := x1 ^^^ (rotr x1 61 ^^^ rotr x1 39)
  let x2 := x2 ^^^ (rotr x2 1 ^^^ rotr x2 6)
  let x3 := x3 ^^^ (rotr x3 10 ^^^ rotr x3 17)
  let x4 := x4 ^^^ (rotr x4 7 ^^^ rotr x4 41)
  ⟨x0, x1, x2, x3, x4⟩

/-- The loop of `Ascon_Permute_Nrounds`: line 71, `i` from `start`, `n` iterations. -/
def roundLoop : (i n : Nat) → State → State
  | _, 0, s => s
  | i, n + 1, s => roundLoop (i + 1) n (round i s)

/-- `Ascon_Permute_Nrounds`: lines 60-93 -/
def permute (S : List Byte) (rounds : Nat) : CM (List Byte) := do
  assert (rounds ≤ 12)
  let s : State := ⟨load64 S, load64 (S.drop 8), load64 (S.drop 16), load64 (S.drop 24), load64 (S.drop 32)⟩
  let s := roundLoop (12 - rounds) rounds s
  pure (store64 s.x0 ++ store64 s.x1 ++ store64 s.x2 ++ store64 s.x3 ++ store64 s.x4)

/-- `isapa128av20/ref/isap.h` -/
def cfgA128a : Ref.Cfg := { stateSz := 40, rH := 64, sH := 12, sB := 1, sE := 6, sK := 12, permute := permute }
/-- `isapa128v20/ref/isap.h` -/
def cfgA128 : Ref.Cfg := { stateSz := 40, rH := 64, sH := 12, sB := 12, sE := 12, sK := 12, permute := permute }

end Model.AsconRef
