import Verif.Model.A128
import Verif.Model.KeccakRef
import Verif.C.Simd
/-!
# Models of the optimized versions of ISAP-K-128a and ISAP-K-128 for 64-bit and AVX-512 machines

`crypto_aead/isapk128av20/{opt_64,avx512}/isap.c`, `crypto_aead/isapk128v20/opt_64/isap.c`.  The three files have the same
control flow; they differ in the permutation code, in the instructions that move blocks of 18 bytes and in the number of
rounds.  One model, parameterised by these (`Prims`).  The variable `union State S` is modelled by its object representation,
a list of bytes: 50 bytes in opt_64, 64 bytes in avx512, where the last 14 are not initialised.  Little-endian machine;
`size_t` has 64 bits.
-/

namespace Model.K128
open C
open KeccakRef (Lanes rol16 words unwords)

/-! ## opt_64: the permutation -/

namespace Opt64

/-- `KeccakF400RoundConstants`: `KeccakP-400-64.macros` lines 5-26 -/
def roundConstants : List (BitVec 16) :=
  [0x0001, 0x8082, 0x808a, 0x8000, 0x808b, 0x0001, 0x8081, 0x8009, 0x008a, 0x0088,
   0x8009, 0x000a, 0x808b, 0x008b, 0x8089, 0x8003, 0x8002, 0x0080, 0x800a, 0x000a]

/-- The variables `Ca`, `Ce`, `Ci`, `Co`, `Cu`.  `KeccakP-400-64.macros` line 37. -/
structure Par where
  a : BitVec 16
  e : BitVec 16
  i : BitVec 16
  o : BitVec 16
  u : BitVec 16

/-- `prepareThetaX`: lines 45-50 -/
def prepareTheta (A : Lanes) : Par where
  a := A[0] ^^^ A[5] ^^^ A[10] ^^^ A[15] ^^^ A[20]
  e := A[1] ^^^ A[6] ^^^ A[11] ^^^ A[16] ^^^ A[21]
  i := A[2] ^^^ A[7] ^^^ A[12] ^^^ A[17] ^^^ A[22]
  o := A[3] ^^^ A[8] ^^^ A[13] ^^^ A[18] ^^^ A[23]
  u := A[4] ^^^ A[9] ^^^ A[14] ^^^ A[19] ^^^ A[24]

/-- `thetaRhoPiChiIotaPrepareTheta(i, A, E)`: lines 54-166.  The input lanes `A` (which the macro also modifies, but they are
always overwritten before they are read again) and the parities; returns the lanes `E` and the new parities.
`rc` is `KeccakF400RoundConstants[i]`. -/
def thetaRhoPiChiIotaPrepareTheta (rc : BitVec 16) (A : Lanes) (C : Par) : Lanes × Par :=
  let Ca := C.a; let Ce := C.e; let Ci := C.i; let Co := C.o; let Cu := C.u
  let a_ba := A[0]; let a_be := A[1]; let a_bi := A[2]; let a_bo := A[3]; let a_bu := A[4]
  let a_ga := A[5]; let a_ge := A[6]; let a_gi := A[7]; let a_go := A[8]; let a_gu := A[9]
  let a_ka := A[10]; let a_ke := A[11]; let a_ki := A[12]; let a_ko := A[13]; let a_ku := A[14]
  let a_ma := A[15]; let a_me := A[16]; let a_mi := A[17]; let a_mo := A[18]; let a_mu := A[19]
  let a_sa := A[20]; let a_se := A[21]; let a_si := A[22]; let a_so := A[23]; let a_su := A[24]
  let Da := Cu ^^^ rol16 Ce 1; let De := Ca ^^^ rol16 Ci 1; let Di := Ce ^^^ rol16 Co 1; let Do := Ci ^^^ rol16 Cu 1
  let Du := Co ^^^ rol16 Ca 1; let a_ba := a_ba ^^^ Da; let Bba := a_ba; let a_ge := a_ge ^^^ De
  let Bbe := rol16 a_ge 12; let a_ki := a_ki ^^^ Di; let Bbi := rol16 a_ki 11; let a_mo := a_mo ^^^ Do
  let Bbo := rol16 a_mo 5; let a_su := a_su ^^^ Du; let Bbu := rol16 a_su 14; let e_ba := Bba ^^^ (~~~ Bbe &&& Bbi)
  let e_ba := e_ba ^^^ rc; let Ca := e_ba; let e_be := Bbe ^^^ (~~~ Bbi &&& Bbo); let Ce := e_be
  let e_bi := Bbi ^^^ (~~~ Bbo &&& Bbu); let Ci := e_bi; let e_bo := Bbo ^^^ (~~~ Bbu &&& Bba); let Co := e_bo
  let e_bu := Bbu ^^^ (~~~ Bba &&& Bbe); let Cu := e_bu; let a_bo := a_bo ^^^ Do; let Bga := rol16 a_bo 12
  let a_gu := a_gu ^^^ Du; let Bge := rol16 a_gu 4; let a_ka := a_ka ^^^ Da; let Bgi := rol16 a_ka 3
  let a_me := a_me ^^^ De; let Bgo := rol16 a_me 13; let a_si := a_si ^^^ Di; let Bgu := rol16 a_si 13
  let e_ga := Bga ^^^ (~~~ Bge &&& Bgi); let Ca := Ca ^^^ e_ga; let e_ge := Bge ^^^ (~~~ Bgi &&& Bgo)
  let Ce := Ce ^^^ e_ge; let e_gi := Bgi ^^^ (~~~ Bgo &&& Bgu); let Ci := Ci ^^^ e_gi
  let e_go := Bgo ^^^ (~~~ Bgu &&& Bga); let Co := Co ^^^ e_go; let e_gu := Bgu ^^^ (~~~ Bga &&& Bge)
  let Cu := Cu ^^^ e_gu; let a_be := a_be ^^^ De; let Bka := rol16 a_be 1; let a_gi := a_gi ^^^ Di
  let Bke := rol16 a_gi 6; let a_ko := a_ko ^^^ Do; let Bki := rol16 a_ko 9; let a_mu := a_mu ^^^ Du
  let Bko := rol16 a_mu 8; let a_sa := a_sa ^^^ Da; let Bku := rol16 a_sa 2; let e_ka := Bka ^^^ (~~~ Bke &&& Bki)
  let Ca := Ca ^^^ e_ka; let e_ke := Bke ^^^ (~~~ Bki &&& Bko); let Ce := Ce ^^^ e_ke
  let e_ki := Bki ^^^ (~~~ Bko &&& Bku); let Ci := Ci ^^^ e_ki; let e_ko := Bko ^^^ (~~~ Bku &&& Bka)
  let Co := Co ^^^ e_ko; let e_ku := Bku ^^^ (~~~ Bka &&& Bke); let Cu := Cu ^^^ e_ku; let a_bu := a_bu ^^^ Du
  let Bma := rol16 a_bu 11; let a_ga := a_ga ^^^ Da; let Bme := rol16 a_ga 4; let a_ke := a_ke ^^^ De
  let Bmi := rol16 a_ke 10; let a_mi := a_mi ^^^ Di; let Bmo := rol16 a_mi 15; let a_so := a_so ^^^ Do
  let Bmu := rol16 a_so 8; let e_ma := Bma ^^^ (~~~ Bme &&& Bmi); let Ca := Ca ^^^ e_ma
  let e_me := Bme ^^^ (~~~ Bmi &&& Bmo); let Ce := Ce ^^^ e_me; let e_mi := Bmi ^^^ (~~~ Bmo &&& Bmu)
  let Ci := Ci ^^^ e_mi; let e_mo := Bmo ^^^ (~~~ Bmu &&& Bma); let Co := Co ^^^ e_mo
  let e_mu := Bmu ^^^ (~~~ Bma &&& Bme); let Cu := Cu ^^^ e_mu; let a_bi := a_bi ^^^ Di; let Bsa := rol16 a_bi 14
  let a_go := a_go ^^^ Do; let Bse := rol16 a_go 7; let a_ku := a_ku ^^^ Du; let Bsi := rol16 a_ku 7
  let a_ma := a_ma ^^^ Da; let Bso := rol16 a_ma 9; let a_se := a_se ^^^ De; let Bsu := rol16 a_se 2
  let e_sa := Bsa ^^^ (~~~ Bse &&& Bsi); let Ca := Ca ^^^ e_sa; let e_se := Bse ^^^ (~~~ Bsi &&& Bso)
  let Ce := Ce ^^^ e_se; let e_si := Bsi ^^^ (~~~ Bso &&& Bsu); let Ci := Ci ^^^ e_si
  let e_so := Bso ^^^ (~~~ Bsu &&& Bsa); let Co := Co ^^^ e_so; let e_su := Bsu ^^^ (~~~ Bsa &&& Bse)
  let Cu := Cu ^^^ e_su
  (#v[e_ba, e_be, e_bi, e_bo, e_bu,
    e_ga, e_ge, e_gi, e_go, e_gu,
    e_ka, e_ke, e_ki, e_ko, e_ku,
    e_ma, e_me, e_mi, e_mo, e_mu,
    e_sa, e_se, e_si, e_so, e_su],
   ⟨Ca, Ce, Ci, Co, Cu⟩)

/-- `thetaRhoPiChiIota(i, A, E)`: lines 170-257 -/
def thetaRhoPiChiIota (rc : BitVec 16) (A : Lanes) (C : Par) : Lanes :=
  let Ca := C.a; let Ce := C.e; let Ci := C.i; let Co := C.o; let Cu := C.u
  let a_ba := A[0]; let a_be := A[1]; let a_bi := A[2]; let a_bo := A[3]; let a_bu := A[4]
  let a_ga := A[5]; let a_ge := A[6]; let a_gi := A[7]; let a_go := A[8]; let a_gu := A[9]
  let a_ka := A[10]; let a_ke := A[11]; let a_ki := A[12]; let a_ko := A[13]; let a_ku := A[14]
  let a_ma := A[15]; let a_me := A[16]; let a_mi := A[17]; let a_mo := A[18]; let a_mu := A[19]
  let a_sa := A[20]; let a_se := A[21]; let a_si := A[22]; let a_so := A[23]; let a_su := A[24]
  let Da := Cu ^^^ rol16 Ce 1; let De := Ca ^^^ rol16 Ci 1; let Di := Ce ^^^ rol16 Co 1; let Do := Ci ^^^ rol16 Cu 1
  let Du := Co ^^^ rol16 Ca 1; let a_ba := a_ba ^^^ Da; let Bba := a_ba; let a_ge := a_ge ^^^ De
  let Bbe := rol16 a_ge 12; let a_ki := a_ki ^^^ Di; let Bbi := rol16 a_ki 11; let a_mo := a_mo ^^^ Do
  let Bbo := rol16 a_mo 5; let a_su := a_su ^^^ Du; let Bbu := rol16 a_su 14; let e_ba := Bba ^^^ (~~~ Bbe &&& Bbi)
  let e_ba := e_ba ^^^ rc; let e_be := Bbe ^^^ (~~~ Bbi &&& Bbo); let e_bi := Bbi ^^^ (~~~ Bbo &&& Bbu)
  let e_bo := Bbo ^^^ (~~~ Bbu &&& Bba); let e_bu := Bbu ^^^ (~~~ Bba &&& Bbe); let a_bo := a_bo ^^^ Do
  let Bga := rol16 a_bo 12; let a_gu := a_gu ^^^ Du; let Bge := rol16 a_gu 4; let a_ka := a_ka ^^^ Da
  let Bgi := rol16 a_ka 3; let a_me := a_me ^^^ De; let Bgo := rol16 a_me 13; let a_si := a_si ^^^ Di
  let Bgu := rol16 a_si 13; let e_ga := Bga ^^^ (~~~ Bge &&& Bgi); let e_ge := Bge ^^^ (~~~ Bgi &&& Bgo)
  let e_gi := Bgi ^^^ (~~~ Bgo &&& Bgu); let e_go := Bgo ^^^ (~~~ Bgu &&& Bga); let e_gu := Bgu ^^^ (~~~ Bga &&& Bge)
  let a_be := a_be ^^^ De; let Bka := rol16 a_be 1; let a_gi := a_gi ^^^ Di; let Bke := rol16 a_gi 6
  let a_ko := a_ko ^^^ Do; let Bki := rol16 a_ko 9; let a_mu := a_mu ^^^ Du; let Bko := rol16 a_mu 8
  let a_sa := a_sa ^^^ Da; let Bku := rol16 a_sa 2; let e_ka := Bka ^^^ (~~~ Bke &&& Bki)
  let e_ke := Bke ^^^ (~~~ Bki &&& Bko); let e_ki := Bki ^^^ (~~~ Bko &&& Bku); let e_ko := Bko ^^^ (~~~ Bku &&& Bka)
  let e_ku := Bku ^^^ (~~~ Bka &&& Bke); let a_bu := a_bu ^^^ Du; let Bma := rol16 a_bu 11; let a_ga := a_ga ^^^ Da
  let Bme := rol16 a_ga 4; let a_ke := a_ke ^^^ De; let Bmi := rol16 a_ke 10; let a_mi := a_mi ^^^ Di
  let Bmo := rol16 a_mi 15; let a_so := a_so ^^^ Do; let Bmu := rol16 a_so 8; let e_ma := Bma ^^^ (~~~ Bme &&& Bmi)
  let e_me := Bme ^^^ (~~~ Bmi &&& Bmo); let e_mi := Bmi ^^^ (~~~ Bmo &&& Bmu); let e_mo := Bmo ^^^ (~~~ Bmu &&& Bma)
  let e_mu := Bmu ^^^ (~~~ Bma &&& Bme); let a_bi := a_bi ^^^ Di; let Bsa := rol16 a_bi 14; let a_go := a_go ^^^ Do
  let Bse := rol16 a_go 7; let a_ku := a_ku ^^^ Du; let Bsi := rol16 a_ku 7; let a_ma := a_ma ^^^ Da
  let Bso := rol16 a_ma 9; let a_se := a_se ^^^ De; let Bsu := rol16 a_se 2; let e_sa := Bsa ^^^ (~~~ Bse &&& Bsi)
  let e_se := Bse ^^^ (~~~ Bsi &&& Bso); let e_si := Bsi ^^^ (~~~ Bso &&& Bsu); let e_so := Bso ^^^ (~~~ Bsu &&& Bsa)
  let e_su := Bsu ^^^ (~~~ Bsa &&& Bse)
  #v[e_ba, e_be, e_bi, e_bo, e_bu,
    e_ga, e_ge, e_gi, e_go, e_gu,
    e_ka, e_ke, e_ki, e_ko, e_ku,
    e_ma, e_me, e_mi, e_mo, e_mu,
    e_sa, e_se, e_si, e_so, e_su]

/-- A sequence of rounds `i`, ..., `i+n-1` with `thetaRhoPiChiIotaPrepareTheta`.  `KeccakP-400-unrolling.macros` lines 1-67. -/
def roundsPT : (i n : Nat) → Lanes × Par → Lanes × Par
  | _, 0, x => x
  | i, n + 1, x => roundsPT (i + 1) n (thetaRhoPiChiIotaPrepareTheta (roundConstants.getD i 0) x.1 x.2)

/-- `rounds20X` (`KeccakP-400-unrolling.macros` lines 1-22), `rounds16X` (24-41), `rounds12X` (43-56), `rounds8X` (58-67):
`prepareThetaX`, rounds `20-n`, ..., 18 with `thetaRhoPiChiIotaPrepareTheta`, then round 19 with `thetaRhoPiChiIota`. -/
def roundsX (n : Nat) (A : Lanes) : Lanes :=
  let x := roundsPT (20 - n) (n - 1) (A, prepareTheta A)
  thetaRhoPiChiIota (roundConstants.getD 19 0) x.1 x.2

/-- `rounds1X`: lines 69-73 -/
def rounds1X (A : Lanes) : Lanes :=
  (thetaRhoPiChiIotaPrepareTheta (roundConstants.getD 19 0) A (prepareTheta A)).1

end Opt64

/-! ## avx512: the permutation -/

namespace Avx

/-- A `__m512i` as 32 words of 16 bits.  `avx512/isap.c` lines 19-51. -/
abbrev V := Vector (BitVec 16) 32

/-- `_mm512_set_epi32(e15, ..., e0)`: `avx512/KeccakP-400-64.macros` lines 42-52 -/
def setEpi32 (l : List (BitVec 32)) : V :=
  Vector.ofFn fun i => ((l.reverse.getD (i.val / 2) 0) >>> (16 * (i.val % 2))).setWidth 16

/-- `_mm512_permutexvar_epi16(idx, a)`: word `i` of the result is word `idx[i] mod 32` of `a`.
`avx512/KeccakP-400-64.macros` lines 57-74. -/
def permutexvar (idx a : V) : V := Vector.ofFn fun i => a[(idx[i].toNat % 32)]'(Nat.mod_lt _ (by decide))

/-- `_mm512_ternarylogic_epi64(a, b, c, imm)`: `avx512/KeccakP-400-64.macros` lines 62-75 -/
def ternarylogic (a b c : V) (imm : BitVec 8) : V := Vector.ofFn fun i => Simd.tern imm a[i] b[i] c[i]

/-- `_mm512_or_epi32`: `avx512/KeccakP-400-64.macros` lines 67, 71 -/
def vor (a b : V) : V := Vector.ofFn fun i => a[i] ||| b[i]

/-- `_mm512_xor_epi64`: `avx512/KeccakP-400-64.macros` line 76 -/
def vxor (a b : V) : V := Vector.ofFn fun i => a[i] ^^^ b[i]

/-- `_mm512_slli_epi16(a, n)`: `avx512/KeccakP-400-64.macros` line 65 -/
def slli (a : V) (n : Nat) : V := Vector.ofFn fun i => a[i] <<< n

/-- `_mm512_srli_epi16(a, n)`: `avx512/KeccakP-400-64.macros` line 66 -/
def srli (a : V) (n : Nat) : V := Vector.ofFn fun i => a[i] >>> n

/-- `_mm512_sllv_epi16(a, c)`: a shift by 16 or more gives 0.  `avx512/KeccakP-400-64.macros` line 69. -/
def sllv (a c : V) : V := Vector.ofFn fun i => a[i] <<< c[i].toNat

/-- `_mm512_srlv_epi16(a, c)`: `avx512/KeccakP-400-64.macros` line 70 -/
def srlv (a c : V) : V := Vector.ofFn fun i => a[i] >>> c[i].toNat

/-- `pchi1`: `avx512/KeccakP-400-64.macros` line 42 -/
def pchi1 : V := setEpi32 [0, 0, 0, 0x000014, 0x180017, 0x160015, 0x0f0013, 0x120011, 0x10000a, 0xe000d, 0xc000b, 0x50009,
  0x80007, 0x60000, 0x40003, 0x20001]
/-- `pchi2`: line 43 -/
def pchi2 : V := setEpi32 [0, 0, 0, 0x000015, 0x140018, 0x170016, 0x10000f, 0x130012, 0x11000b, 0xa000e, 0xd000c, 0x60005,
  0x90008, 0x70001, 0x00004, 0x30002]
/-- `ppi`: line 44 -/
def ppi : V := setEpi32 [0, 0, 0, 0x0015, 0xf000e, 0x80002, 0x170011, 0xb0005, 0x40014, 0x13000d, 0x70001, 0x160010,
  0xa0009, 0x30018, 0x12000c, 0x60000]
/-- `lrho`: line 45 -/
def lrho : V := setEpi32 [0, 0, 0, 0x000e, 0x8000d, 0x20002, 0x80005, 0xf000d, 0x90007, 0x9000b, 0xa0003, 0x40007,
  0x6000c, 0x4000b, 0xc000e, 0x10000]
/-- `rrho`: line 46 -/
def rrho : V := setEpi32 [0, 0, 0, 0x100010 - 0x000e, 0x100010 - 0x8000d, 0x100010 - 0x20002, 0x100010 - 0x80005,
  0x100010 - 0xf000d, 0x100010 - 0x90007, 0x100010 - 0x9000b, 0x100010 - 0xa0003, 0x100010 - 0x40007, 0x100010 - 0x6000c,
  0x100010 - 0x4000b, 0x100010 - 0xc000e, 0x100010 - 0x10000]
/-- `ptheta1`: line 47 -/
def ptheta1 : V := setEpi32 [0, 0, 0, 0x00014, 0x180017, 0x160015, 0x0f0013, 0x120011, 0x10000a, 0xe000d, 0xc000b, 0x50009,
  0x80007, 0x60000, 0x40003, 0x20001]
/-- `ptheta2`: line 48 -/
def ptheta2 : V := setEpi32 [0, 0, 0, 0x0000, 0x40003, 0x20001, 0x140018, 0x170016, 0x15000f, 0x130012, 0x110010, 0xa000e,
  0xd000c, 0xb0005, 0x90008, 0x70006]
/-- `ptheta3`: line 49 -/
def ptheta3 : V := setEpi32 [0, 0, 0, 0x0005, 0x90008, 0x70006, 0x00004, 0x30002, 0x10014, 0x180017, 0x160015, 0x0f0013,
  0x120011, 0x10000a, 0xe000d, 0xc000b]
/-- `ptheta4`: line 50 -/
def ptheta4 : V := setEpi32 [0, 0, 0, 0x000a, 0xe000d, 0xc000b, 0x50009, 0x80007, 0x60000, 0x40003, 0x20001, 0x140018,
  0x170016, 0x15000f, 0x130012, 0x110010]
/-- `ptheta5`: line 51 -/
def ptheta5 : V := setEpi32 [0, 0, 0, 0x000f, 0x130012, 0x110010, 0xa000e, 0xd000c, 0xb0005, 0x90008, 0x70006, 0x00004,
  0x30002, 0x10014, 0x180017, 0x160015]
/-- `ptheta6`: line 52 -/
def ptheta6 : V := setEpi32 [0, 0, 0, 0x0016, 0x150014, 0x180017, 0x110010, 0xf0013, 0x12000c, 0xb000a, 0xe000d, 0x70006,
  0x50009, 0x80002, 0x10000, 0x40003]

/-- `_mm512_set_epi64(0,0,0,0,0,0,0,KeccakF400RoundConstants[i])`: `avx512/KeccakP-400-64.macros` line 76 -/
def setRc (rc : BitVec 16) : V := Vector.ofFn fun i => if i.val = 0 then rc else 0

/-- `thetaRhoPiChiIota(i, A, E)`: lines 56-76; `rc` is `KeccakF400RoundConstants[i]`.  `A` is modified by the macro, but
overwritten before it is read again. -/
def thetaRhoPiChiIota (rc : BitVec 16) (A : V) : V :=
  let C1 := permutexvar ptheta1 A
  let C2 := permutexvar ptheta2 A
  let C3 := permutexvar ptheta3 A
  let C4 := permutexvar ptheta4 A
  let C5 := permutexvar ptheta5 A
  let D := ternarylogic C1 C2 C3 0x96
  let D := ternarylogic D C4 C5 0x96
  let C3 := permutexvar ptheta6 D
  let C1 := slli D 1
  let C2 := srli D 15
  let D := vor C1 C2
  let A := ternarylogic A D C3 0x96
  let B1 := sllv A lrho
  let B2 := srlv A rrho
  let B := vor B1 B2
  let B := permutexvar ppi B
  let B1 := permutexvar pchi1 B
  let B2 := permutexvar pchi2 B
  let E := ternarylogic B B1 B2 0xd2
  vxor E (setRc rc)

/-- Rounds `i`, ..., `i+n-1`: `avx512/KeccakP-400-unrolling.macros` (`rounds20X` lines 1-21, `rounds16X`, `rounds12X`,
`rounds8X`: `i = 20 - n`; `rounds1X`: round 19).  The table of constants (`KeccakP-400-64.macros` lines 5-26) is that of
opt_64. -/
def roundLoop : (i n : Nat) → V → V
  | _, 0, A => A
  | i, n + 1, A => roundLoop (i + 1) n (thetaRhoPiChiIota (Opt64.roundConstants.getD i 0) A)

/-- The 64 bytes of a `__m512i` as words.  `union State`, `avx512/isap.c` lines 19-51. -/
def words (S : List Byte) : V := Vector.ofFn fun i => (S.getD (2 * i.val + 1) 0) ++ (S.getD (2 * i.val) 0)

/-- The bytes of the words.  `union State`, `avx512/isap.c` lines 19-51. -/
def unwords (A : V) : List Byte := A.toList.flatMap fun (l : BitVec 16) => [l.setWidth 8, (l >>> 8).setWidth 8]

/-- `roundsNX` on the object representation.  `avx512/isap.c` lines 53-56. -/
def perm (n : Nat) (S : List Byte) : List Byte := unwords (roundLoop (20 - n) n (words S))

end Avx

/-! ## The mode -/

/-- What the three files do differently.  `opt_64/isap.c` lines 8-54, `avx512/isap.c` lines 9-56. -/
structure Prims where
  /-- `PermuteRoundsHX`, `PermuteRoundsBX`, `PermuteRoundsEX`, `PermuteRoundsKX` on the object representation of `S` -/
  pH : List Byte → List Byte
  pB : List Byte → List Byte
  pE : List Byte → List Byte
  pK : List Byte → List Byte
  /-- `ISAP_IV1`, `ISAP_IV2`, `ISAP_IV3` -/
  iv : Nat → List Byte
  /-- bytes of `S` after the first 50 when it is declared: in `isap_rk` called with `ISAP_IV2`, `ISAP_IV3`, in `isap_mac` and
  in `isap_enc` -/
  padRk : Nat → List Byte
  padMac : List Byte
  padEnc : List Byte
  /-- the 18 bytes of a block read by `ABSORB_MAC` -/
  ldBlk : Ptr → CM (List Byte)
  /-- the 18 bytes of a block read by `isap_enc` -/
  ldMsg : Ptr → CM (List Byte)
  /-- width of the stores to `tag` -/
  tagAlign : Nat

/-- Exclusive or of `bs` into the object representation `S` at byte offset `off`.  `opt_64/isap.c` lines 61-63, 68-70,
`avx512/isap.c` lines 63, 68. -/
def xorMem (S : List Byte) (off : Nat) (bs : List Byte) : List Byte :=
  (List.range bs.length).foldl (fun S i => S.modify (off + i) (· ^^^ bs.getD i 0)) S

/-- `n` loads of `w` bytes at increasing addresses: `k16[0]`, `k16[1]`, ..: `opt_64/isap.c` lines 108-119, `avx512/isap.c`
lines 106-117 -/
def loads (al w : Nat) : Nat → Ptr → CM (List Byte)
  | 0, _ => pure []
  | n + 1, p => do
    let a ← load al w p
    let b ← loads al w n (p + w)
    pure (a ++ b)

/-- One iteration of the loop for the last, partial block: `opt_64/isap.c` lines 77-84; `src` points to the partial block. -/
def padByte (src : Ptr) (rem i : Nat) (S : List Byte) : CM (List Byte) := do
  let b ← branch (i < rem)
  if b then
    let d ← load8 (src + i)
    pure (xorMem S i [d])
  else
    let b ← branch (i = rem)
    if b then pure (xorMem S i [0x80]) else pure S

/-- `ABSORB_MAC`: `opt_64/isap.c` lines 56-88, `avx512/isap.c` lines 58-86.  `S.X.Aba ^= 0x80` changes byte 0. -/
def absorbMac (D : Prims) (S : List Byte) (src : Ptr) (len : Nat) : CM (List Byte) :=
  whileRem 18 (by decide) len 0
    (fun i S => do
      let d ← D.ldBlk (src + 18 * i)
      pure (D.pH (xorMem S 0 d)))
    (fun i S => do
      let d ← D.ldBlk (src + 18 * i)
      let S := D.pH (xorMem S 0 d)
      pure (D.pH (xorMem S 0 [0x80])))
    (fun i rem S => do
      let S ← forN 18 0 (padByte (src + 18 * i) rem) S
      pure (D.pH S)) S

/-- `isap_rk` with `ylen` = 16 and the `n`-th IV: `opt_64/isap.c` lines 94-167, `avx512/isap.c` lines 92-151.  Returns the
bytes stored in `out`.  `S.X.Aba ^= cur_bit` changes byte 0 only, since `cur_bit` is 0 or 0x80. -/
def isapRk (D : Prims) (k : Ptr) (n : Nat) (y : Src) (outlen : Nat) : CM (List Byte) := do
  let kb ← loads 2 2 8 k
  let S := D.pK (kb ++ D.iv n ++ List.replicate 26 0 ++ D.padRk n)
  let S ← forN 127 0 (fun i S => do
    let yb ← y.get (i / 8)
    pure (D.pB (xorMem S 0 [A128.yBit yb i]))) S
  let yb ← y.get 15
  let S := D.pK (xorMem S 0 [(yb &&& 1) <<< 7])
  let b ← branch (outlen = 34)
  if b then pure (S.take 34) else pure (S.take 16)

/-- `isap_mac`: `opt_64/isap.c` lines 173-252, `avx512/isap.c` lines 157-215.  `S.X.Asu ^= 0x0100` changes byte 49.  The
array `y` is both input and output of `isap_rk`, which reads all of it before it writes. -/
def isapMac (D : Prims) (k npub ad : Ptr) (adlen : Nat) (c : Ptr) (clen : Nat) : CM (List Byte) := do
  let nb ← loads 2 2 8 npub
  let S := D.pH (nb ++ D.iv 1 ++ List.replicate 26 0 ++ D.padMac)
  let S ← absorbMac D S ad adlen
  let S := xorMem S 49 [0x01]
  let S ← absorbMac D S c clen
  let y := S.take 16
  let y ← isapRk D k 2 (.loc y) 16
  let S := D.pH (y ++ S.drop 16)
  pure (S.take 16)

/-- The stores of one full block, `memcpy(c+idx, &lane, 18)` or one masked store of 18 bytes.  `opt_64/isap.c` lines
307-310, 317-320, `avx512/isap.c` lines 270-271, 278-279. -/
def encBlock (D : Prims) (m c : Ptr) (S : List Byte) : CM Unit := do
  let d ← D.ldMsg m
  store 1 c (List.zipWith (· ^^^ ·) d (S.take 18))

/-- `isap_enc`: `opt_64/isap.c` lines 258-331, `avx512/isap.c` lines 221-290. -/
def isapEnc (D : Prims) (k npub m : Ptr) (mlen : Nat) (c : Ptr) : CM Unit := do
  let key ← isapRk D k 3 (.ext npub) 34
  let nb ← loads 2 2 8 npub
  let S := D.pE (key ++ nb ++ D.padEnc)
  let _ ← whileRem 18 (by decide) mlen 0
    (fun i S => do
      encBlock D (m + 18 * i) (c + 18 * i) S
      pure (D.pE S))
    (fun i S => do
      encBlock D (m + 18 * i) (c + 18 * i) S
      pure S)
    (fun i rem S => do
      let _ ← forN rem 0 (fun j (_ : Unit) => do
        let d ← load8 (m + 18 * i + j)
        store8 (c + 18 * i + j) (d ^^^ S.getD j 0)) ()
      pure S) S
  pure ()

/-- The implementation with the given primitives.  `opt_64/isap.c` lines 173-331, `avx512/isap.c` lines 157-290. -/
def impl (D : Prims) : Impl := { enc := isapEnc D, mac := isapMac D, tagAlign := D.tagAlign }

/-! ## The three implementations -/

namespace Opt64

/-- `ABSORB_MAC` reads two 64-bit words and **another 64-bit word** of which only the low 16 bits are used:
`S.l16[8] ^= *((UINT64 *)(src+idx+16))`, `opt_64/isap.c` lines 61-63, 68-70. -/
def ldBlk (p : Ptr) : CM (List Byte) := do
  let a ← load 8 8 p
  let b ← load 8 8 (p + 8)
  let d ← load 8 8 (p + 16)
  pure (a ++ b ++ d.take 2)

/-- How far the 64-bit reads of `ABSORB_MAC` extend: six bytes past the last full block.  `opt_64/isap.c` lines 61-63,
68-70. -/
def ext (len : Nat) : Nat := if 18 ≤ len then max len (18 * (len / 18) + 6) else len

/-- `isap_enc` reads two 64-bit words and one 16-bit word: lines 307-309, 317-319. -/
def ldMsg (p : Ptr) : CM (List Byte) := do
  let a ← load 8 8 p
  let b ← load 8 8 (p + 8)
  let d ← load 2 2 (p + 16)
  pure (a ++ b ++ d)

/-- `isapk128av20/opt_64`: `isap.c` lines 8-10, 51-54 and `isap.h` lines 5-12. -/
def primsK128a : Prims where
  pH S := unwords (roundsX 16 (words S))
  pB S := unwords (rounds1X (words S))
  pE S := unwords (roundsX 8 (words S))
  pK S := unwords (roundsX 8 (words S))
  iv i := [BitVec.ofNat 8 i, 128, 144, 1, 16, 1, 8, 8]
  padRk _ := []
  padMac := []
  padEnc := []
  ldBlk := ldBlk
  ldMsg := ldMsg
  tagAlign := 2

/-- `isapk128v20/opt_64`: `isap.c` lines 8-10, 51-54 and `isap.h` lines 5-12. -/
def primsK128 : Prims where
  pH S := unwords (roundsX 20 (words S))
  pB S := unwords (roundsX 12 (words S))
  pE S := unwords (roundsX 12 (words S))
  pK S := unwords (roundsX 12 (words S))
  iv i := [BitVec.ofNat 8 i, 128, 144, 1, 20, 12, 12, 12]
  padRk _ := []
  padMac := []
  padEnc := []
  ldBlk := ldBlk
  ldMsg := ldMsg
  tagAlign := 2

end Opt64

namespace Avx

/-- What the 14 bytes of the variables `S` beyond the 25 lanes contain when they are declared.  `union State S` in
`avx512/KeccakP-400-64.macros` line 31, declared without an initial value. -/
structure Junk where
  rkMac : BitVec 112
  rkEnc : BitVec 112
  mac : BitVec 112
  enc : BitVec 112
deriving DecidableEq

/-- The 14 bytes.  `union State`, `avx512/isap.c` lines 19-51. -/
def junk (x : BitVec 112) : List Byte := (List.range 14).map fun i => (x >>> (8 * i)).setWidth 8

/-- `isapk128av20/avx512`: `isap.c` lines 9-11, 53-56.  Blocks are read by one load of 18 bytes without alignment requirement
(`_mm512_maskz_loadu_epi8(0x3ffff, p)`); bytes outside the mask are not accessed. -/
def prims (j : Junk) : Prims where
  pH := perm 16
  pB := perm 1
  pE := perm 8
  pK := perm 8
  iv i := [BitVec.ofNat 8 i, 128, 144, 1, 16, 1, 8, 8]
  padRk n := if n = 2 then junk j.rkMac else junk j.rkEnc
  padMac := junk j.mac
  padEnc := junk j.enc
  ldBlk p := load 1 18 p
  ldMsg p := load 1 18 p
  tagAlign := 1

end Avx

end Model.K128
