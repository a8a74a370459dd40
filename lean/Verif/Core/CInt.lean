/-!
# C++ integer arithmetic (LP64, two's complement)

Machine integers are represented by `Int`/`Nat` values in range; the functions here are the
conversions and the range checks the language prescribes.
-/
set_option autoImplicit false

namespace Ecl

/-- Conversion of an integer to `unsigned int` (modulo 2^32). -/
def u32 (i : Int) : Nat := (i % 4294967296).toNat

/-- Conversion of an integer to a 64 bit unsigned type such as `size_t` (modulo 2^64). -/
def u64 (i : Int) : Nat := (i % 18446744073709551616).toNat

/-- Conversion of an `unsigned int` value to `int` (two's complement). -/
def s32 (n : Nat) : Int :=
  if n % 4294967296 < 2147483648 then (n % 4294967296 : Nat) else (n % 4294967296 : Nat) - 4294967296

def intMax : Int := 2147483647
def intMin : Int := -2147483648
def longMax : Int := 9223372036854775807
def longMin : Int := -9223372036854775808

/-- Value representable as `int`. -/
def InInt (i : Int) : Prop := intMin ≤ i ∧ i ≤ intMax
instance (i : Int) : Decidable (InInt i) := by unfold InInt; exact inferInstance

/-- Value representable as `long`. -/
def InLong (i : Int) : Prop := longMin ≤ i ∧ i ≤ longMax
instance (i : Int) : Decidable (InLong i) := by unfold InLong; exact inferInstance

theorem u32_of_nonneg {i : Int} (h0 : 0 ≤ i) (h1 : i < 4294967296) : u32 i = i.toNat := by
  unfold u32; congr 1; omega

theorem u32_natCast {n : Nat} (h1 : n < 4294967296) : u32 (n : Int) = n := by
  unfold u32; omega

theorem u64_natCast {n : Nat} (h1 : n < 18446744073709551616) : u64 (n : Int) = n := by
  unfold u64; omega

theorem s32_small {n : Nat} (h : n < 2147483648) : s32 n = (n : Int) := by
  unfold s32
  have : n % 4294967296 = n := Nat.mod_eq_of_lt (by omega)
  rw [this, if_pos h]

theorem u32_lt (i : Int) : u32 i < 4294967296 := by unfold u32; omega

theorem s32_range (n : Nat) : InInt (s32 n) := by
  unfold s32 InInt intMin intMax; split <;> omega

end Ecl
