/-!
# C integer arithmetic on wasm32

Shared vocabulary of the models: 32- and 64-bit two's complement integers as `Int`,
unsigned ones as `Nat`, and checked signed operations whose overflow is the distinct
outcome `none` (undefined behaviour in C).
-/

namespace Verif

/-- A value of the C type `int` (also `long`, `ptrdiff_t`, `int32_t`) on wasm32. -/
def IsI32 (x : Int) : Prop := -2147483648 ≤ x ∧ x ≤ 2147483647

instance (x : Int) : Decidable (IsI32 x) := inferInstanceAs (Decidable (_ ∧ _))

/-- A value of the C type `long long` / `int64_t`. -/
def IsI64 (x : Int) : Prop := -9223372036854775808 ≤ x ∧ x ≤ 9223372036854775807

instance (x : Int) : Decidable (IsI64 x) := inferInstanceAs (Decidable (_ ∧ _))

/-- Conversion of a signed value to `unsigned` (C11 6.3.1.3p2). -/
def u32 (x : Int) : Nat := (x % 4294967296).toNat

/-- Conversion of a signed value to a 64-bit unsigned type. -/
def u64 (x : Int) : Nat := (x % 18446744073709551616).toNat

/-- Conversion of an unsigned value to `int` (implementation-defined in C; clang wraps). -/
def s32 (n : Nat) : Int :=
  if n % 4294967296 < 2147483648 then (n % 4294967296 : Nat) else (n % 4294967296 : Nat) - 4294967296

/-- Conversion of an unsigned value to `long long` (clang wraps). -/
def s64 (n : Nat) : Int :=
  if n % 18446744073709551616 < 9223372036854775808 then (n % 18446744073709551616 : Nat)
  else (n % 18446744073709551616 : Nat) - 18446744073709551616

/-- Signed `int` result; `none` is signed overflow, i.e. undefined behaviour. -/
def chk32 (x : Int) : Option Int := if IsI32 x then some x else none

/-- Signed `long long` result; `none` is signed overflow, i.e. undefined behaviour. -/
def chk64 (x : Int) : Option Int := if IsI64 x then some x else none

/-- Bitwise `|` on `int`. -/
def or32 (a b : Int) : Int := (BitVec.ofInt 32 a ||| BitVec.ofInt 32 b).toInt

/-- Bitwise `&` on `int`. -/
def and32 (a b : Int) : Int := (BitVec.ofInt 32 a &&& BitVec.ofInt 32 b).toInt

/-- Bitwise `~` on `int`. -/
def not32 (a : Int) : Int := (~~~ BitVec.ofInt 32 a).toInt

end Verif
