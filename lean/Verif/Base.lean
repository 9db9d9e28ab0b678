/-!
# Common vocabulary of the model

Bytes, C integer helpers (`lib/common.h`), outcomes that keep undefined behaviour apart from
ordinary errors.
-/

namespace Verif

/-- A C `uint8_t` / `char` in a buffer. -/
abbrev Byte := BitVec 8

/-- Abnormal ends that C code can reach; kept apart from errors that are reported to the caller.
`oob`: access outside a buffer, table or structure.  `uninit`: use of uninitialised memory.
`assertFail`: `assert()` fires (the server aborts).  `diverge`: an endless loop. -/
inductive Fault where
  | oob
  | uninit
  | assertFail
  | diverge
  deriving DecidableEq, Repr

/-- Result of a C function with the convention "`-1` and `errno`". -/
inductive Res (α : Type) where
  | ok (a : α)
  | err (errno : Nat)
  | fault (f : Fault)
  deriving DecidableEq, Repr

namespace Res
def bind {α β : Type} : Res α → (α → Res β) → Res β
  | .ok a, f => f a
  | .err e, _ => .err e
  | .fault f, _ => .fault f

def map {α β : Type} (f : α → β) : Res α → Res β
  | .ok a => .ok (f a)
  | .err e => .err e
  | .fault e => .fault e

instance : Monad Res where
  pure := .ok
  bind := bind

def isFault {α : Type} : Res α → Bool
  | .fault _ => true
  | _ => false
end Res

/-! `errno` values (asm-generic). -/
def ENOENT : Nat := 2
def EINTR : Nat := 4
def EAGAIN : Nat := 11
def ENOMEM : Nat := 12
def EACCES : Nat := 13
def EFAULT : Nat := 14
def EBUSY : Nat := 16
def EINVAL : Nat := 22
def ENOSPC : Nat := 28
def ENOMSG : Nat := 42
def EPROTO : Nat := 71
def EMSGSIZE : Nat := 90
def ENOTSUP : Nat := 95
def ECONNRESET : Nat := 104
def ENOTCONN : Nat := 107

/-- `2^64`: `size_t`, `uint64_t`, pointers. -/
def U64 : Nat := 18446744073709551616
/-- `2^32`: `uint32_t`. -/
def U32 : Nat := 4294967296

theorem U64_eq : U64 = 2 ^ 64 := by decide
theorem U32_eq : U32 = 2 ^ 32 := by decide

/-- 64-bit addition as C computes it on `uint64_t`, `size_t` and (on the flat address space assumed
in DESIGN.md) on pointers. -/
def add64 (a b : Nat) : Nat := (a + b) % U64

/-- 32-bit unsigned addition. -/
def add32 (a b : Nat) : Nat := (a + b) % U32

/-- `lib/common.h:61` `ROUND_DOWN(x, a) = x & ~(a - 1)` on 64-bit operands; `a ≥ 1`. -/
def roundDown (x a : Nat) : Nat := (x % U64) &&& (U64 - 1 - (a - 1))

/-- `lib/common.h:62` `ROUND_UP(x, a) = ROUND_DOWN(x + a - 1, a)` on 64-bit operands. -/
def roundUp (x a : Nat) : Nat := roundDown (x + a - 1) a

/-- `lib/common.h:81-86` `satadd_u32`: `a + b` is computed in 32 bits and then compared. -/
def satadd32 (a b : Nat) : Nat :=
  let res := add32 a b
  if res < a then U32 - 1 else res

/-- `lib/common.h:89-94` `satadd_u64`. -/
def satadd64 (a b : Nat) : Nat :=
  let res := add64 a b
  if res < a then U64 - 1 else res

/-- `lib/common.h:103-115` `get_bitmap_size`.  The result type `ssize_t` is a natural number here; the
code's results are far below `2^63`. -/
def getBitmapSize (regionSize pgsize : Nat) : Res Nat :=
  if pgsize = 0 then .err EINVAL
  else if regionSize < pgsize then .err EINVAL
  else
    let nrPages := regionSize / pgsize + (if regionSize % pgsize ≠ 0 then 1 else 0)
    .ok (roundUp nrPages 64 / 8)

/-! ## Arithmetic of the rounding macros -/

theorem and_mask_pow2 {x k : Nat} (hx : x < U64) (hk : k ≤ 64) :
    x &&& (U64 - 1 - (2 ^ k - 1)) = x / 2 ^ k * 2 ^ k := by
  have hU : U64 = 2 ^ 64 := U64_eq
  apply Nat.eq_of_testBit_eq
  intro i
  have h1 : U64 - 1 - (2 ^ k - 1) = (2 ^ (64 - k) - 1) <<< k := by
    rw [Nat.shiftLeft_eq, Nat.sub_mul, ← Nat.pow_add, Nat.sub_add_cancel hk, hU]
    have : 0 < 2 ^ k := Nat.two_pow_pos k
    have : 2 ^ k ≤ 2 ^ 64 := Nat.pow_le_pow_right (by decide) hk
    omega
  rw [h1, Nat.testBit_and, Nat.testBit_shiftLeft, Nat.testBit_two_pow_sub_one]
  have h2 : x / 2 ^ k * 2 ^ k = (x >>> k) <<< k := by
    rw [Nat.shiftLeft_eq, Nat.shiftRight_eq_div_pow]
  rw [h2, Nat.testBit_shiftLeft, Nat.testBit_shiftRight]
  by_cases hik : k ≤ i
  · have : k + (i - k) = i := by omega
    simp only [this, hik, decide_true, Bool.true_and]
    by_cases hi : i < 64
    · have : i - k < 64 - k := by omega
      simp [this]
    · have hlt : x < 2 ^ i :=
        Nat.lt_of_lt_of_le (hU ▸ hx) (Nat.pow_le_pow_right (by decide) (by omega))
      simp [Nat.testBit_lt_two_pow hlt]
  · simp [hik]

theorem roundDown_pow2_mod (x : Nat) {k : Nat} (hk : k ≤ 64) :
    roundDown x (2 ^ k) = (x % U64) / 2 ^ k * 2 ^ k := by
  unfold roundDown
  exact and_mask_pow2 (Nat.mod_lt _ (by decide)) hk

theorem roundDown_pow2 {x k : Nat} (hx : x < U64) (hk : k ≤ 64) :
    roundDown x (2 ^ k) = x / 2 ^ k * 2 ^ k := by
  rw [roundDown_pow2_mod x hk, Nat.mod_eq_of_lt hx]

theorem roundUp_pow2 {x k : Nat} (hx : x + 2 ^ k - 1 < U64) (hk : k ≤ 64) :
    roundUp x (2 ^ k) = (x + 2 ^ k - 1) / 2 ^ k * 2 ^ k := by
  unfold roundUp
  exact roundDown_pow2 hx hk

end Verif
