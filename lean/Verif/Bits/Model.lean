/-
Model of the searches for bits.
Source: `/repo/src/utils/bitsetUtils.cc`, `/repo/src/utils/bitsetUtils.hh`.

A word or bit set is the number with these bits; an `unsigned long` has 64 bits; masking is `%` and shifting `/` by a power of two. `-1` is `none`.
-/
set_option autoImplicit false
namespace Verif.Bits

/-- One halving: `bitsetUtils.cc:45-48, 53-58, 60-64, 66-70, 72-76`. The low `k` bits if one is set, otherwise the rest, and what is added to `n`. -/
def halve (k : Nat) (n tmp : Nat) : Nat × Nat := if tmp % 2 ^ k = 0 then (n + k, tmp / 2 ^ k) else (n, tmp % 2 ^ k)

/-- `findFirstOne`, `bitsetUtils.cc:35-81`. -/
def firstOne (bits : Nat) : Option Nat :=
  if bits = 0 then none
  else
    let (n, t) := halve 32 0 bits
    let (n, t) := halve 16 n t
    let (n, t) := halve 8 n t
    let (n, t) := halve 4 n t
    let (n, t) := halve 2 n t
    some (if t % 2 = 1 then n else n + 1)

/-- `findFirstZero`, `bitsetUtils.cc:83-86`: of the complement, in 64 bits. -/
def firstZero (bits : Nat) : Option Nat := firstOne (2 ^ 64 - 1 - bits)

/-- The loop of `findFirstOne` of a bit set of `size` bits, at bit `n`, `bitsetUtils.hh:53-65`; `fuel` is enough when it is not less than `size - n`. -/
def oneLoop (size : Nat) : Nat → Nat → Nat → Option Nat
  | 0, _, _ => none
  | fuel + 1, n, tmp =>
    if n < size then
      if tmp % 2 ^ 64 ≠ 0 then (firstOne (tmp % 2 ^ 64)).map (n + ·) else oneLoop size fuel (n + 64) (tmp / 2 ^ 64)
    else none

/-- `findFirstOne` of a bit set, `bitsetUtils.hh:41-66`. -/
def setFirstOne (size b : Nat) : Option Nat := if b = 0 then none else oneLoop size size 0 b

/-- The loop of `findFirstZero` of a bit set, `bitsetUtils.hh:81-93`. -/
def zeroLoop (size : Nat) : Nat → Nat → Nat → Option Nat
  | 0, _, _ => none
  | fuel + 1, n, tmp =>
    if n < size then
      if 2 ^ 64 - 1 - tmp % 2 ^ 64 ≠ 0 then (firstZero (tmp % 2 ^ 64)).map (n + ·) else zeroLoop size fuel (n + 64) (tmp / 2 ^ 64)
    else none

/-- `findFirstZero` of a bit set, `bitsetUtils.hh:69-94`. -/
def setFirstZero (size b : Nat) : Option Nat := if b = 2 ^ size - 1 then none else zeroLoop size size 0 b

end Verif.Bits
