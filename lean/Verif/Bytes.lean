import Verif.Base

/-! # Little-endian fields of messages

The structs of `include/vfio-user.h` are packed; the host is taken to be little-endian. -/

namespace Verif

/-- The `n`-byte little-endian number at offset `off`; absent bytes count as 0. -/
def leAt (bs : List Byte) (off : Nat) : Nat → Nat
  | 0 => 0
  | n + 1 => (bs.getD off 0#8).toNat + 256 * leAt bs (off + 1) n

/-- Reading a field through a pointer into a buffer: outside the buffer it is a fault. -/
def rd (bs : List Byte) (off n : Nat) : Res Nat :=
  if off + n ≤ bs.length then .ok (leAt bs off n) else .fault .oob

/-- The `n`-byte little-endian encoding. -/
def enc : Nat → Nat → List Byte
  | 0, _ => []
  | n + 1, v => BitVec.ofNat 8 v :: enc n (v / 256)

theorem enc_length (n v : Nat) : (enc n v).length = n := by
  induction n generalizing v with
  | zero => rfl
  | succ n ih => simp [enc, ih]

theorem leAt_append_right (a b : List Byte) (n : Nat) : ∀ off, leAt (a ++ b) (a.length + off) n = leAt b off n := by
  induction n with
  | zero => intro off; rfl
  | succ n ih =>
    intro off
    simp only [leAt]
    rw [show a.length + off + 1 = a.length + (off + 1) by omega, ih]
    congr 2
    rw [List.getD_eq_getElem?_getD, List.getD_eq_getElem?_getD, List.getElem?_append_right (by omega)]
    congr 2
    omega

theorem leAt_append_left (a b : List Byte) (n : Nat) : ∀ off, off + n ≤ a.length → leAt (a ++ b) off n = leAt a off n := by
  induction n with
  | zero => intro off _; rfl
  | succ n ih =>
    intro off h
    simp only [leAt]
    rw [ih (off + 1) (by omega)]
    congr 2
    rw [List.getD_eq_getElem?_getD, List.getD_eq_getElem?_getD, List.getElem?_append_left (by omega)]

theorem leAt_enc (n v : Nat) : leAt (enc n v) 0 n = v % 256 ^ n := by
  induction n generalizing v with
  | zero => simp [leAt, Nat.mod_one]
  | succ n ih =>
    simp only [leAt, enc]
    have h1 : ([BitVec.ofNat 8 v] ++ enc n (v / 256)) = BitVec.ofNat 8 v :: enc n (v / 256) := rfl
    have h2 := leAt_append_right [BitVec.ofNat 8 v] (enc n (v / 256)) n 0
    rw [h1] at h2
    simp only [List.length_cons, List.length_nil, Nat.zero_add, Nat.add_zero] at h2
    rw [Nat.zero_add, h2, ih]
    simp only [List.getD_cons_zero, BitVec.toNat_ofNat]
    rw [Nat.pow_succ (n := 256), Nat.mul_comm (256 ^ n) 256, Nat.mod_mul]

theorem leAt_lt (bs : List Byte) (n : Nat) : ∀ off, leAt bs off n < 256 ^ n := by
  induction n with
  | zero => intro off; simp [leAt]
  | succ n ih =>
    intro off
    simp only [leAt]
    have h1 := ih (off + 1)
    have h2 := (bs.getD off 0#8).isLt
    rw [Nat.pow_succ]
    omega

/-- A field written at its place is read back. -/
theorem leAt_field (a b : List Byte) (n v off : Nat) (h : a.length = off) (hv : v < 256 ^ n) :
    leAt (a ++ enc n v ++ b) off n = v := by
  subst h
  rw [List.append_assoc]
  have h1 := leAt_append_right a (enc n v ++ b) n 0
  rw [Nat.add_zero] at h1
  rw [h1, leAt_append_left _ _ _ _ (by rw [enc_length]; omega), leAt_enc, Nat.mod_eq_of_lt hv]

/-- A number that fits is determined by its encoding. -/
theorem enc_leAt (bs : List Byte) (n : Nat) : ∀ off, off + n ≤ bs.length → enc n (leAt bs off n) = (bs.drop off).take n := by
  induction n with
  | zero => intro off _; simp [enc]
  | succ n ih =>
    intro off h
    simp only [leAt, enc]
    have hlt : off < bs.length := by omega
    have hd : bs.drop off = bs[off] :: bs.drop (off + 1) := List.drop_eq_getElem_cons hlt
    rw [hd, List.take_succ_cons]
    have hb : bs.getD off 0#8 = bs[off] := by simp [List.getD_eq_getElem?_getD, hlt]
    rw [hb]
    have hx := bs[off].isLt
    have e1 : (bs[off].toNat + 256 * leAt bs (off + 1) n) / 256 = leAt bs (off + 1) n := by omega
    rw [e1, ih (off + 1) (by omega)]
    congr 1
    apply BitVec.eq_of_toNat_eq
    rw [BitVec.toNat_ofNat]
    omega

end Verif
