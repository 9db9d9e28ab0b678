import Verif.Region.Model
import Mathlib.Tactic.ByContra

/-! # Properties of regions (C32 to C36, C65) -/

namespace Verif.Region
open Verif

theorem satadd64_le {a b c : Nat} (hc : c < U64 - 1) (ha : a < U64) (hb : b < U64) :
    satadd64 a b ≤ c ↔ a + b ≤ c := by
  have he : add64 a b = (a + b) % 18446744073709551616 := rfl
  have hu : U64 - 1 = 18446744073709551615 := rfl
  have hu2 : U64 = 18446744073709551616 := rfl
  unfold satadd64
  dsimp only
  by_cases h : add64 a b < a
  · rw [if_pos h]; omega
  · rw [if_neg h]; omega

/-! ## C32 and C33: accesses -/

/-- When an access may reach a handler. -/
structure AccessOk (tbl : List Reg) (stopCopy isWrite : Bool) (body : List Byte) (r : Reg) : Prop where
  len : 16 ≤ body.length
  count : leAt body 12 4 ≤ 1048576
  payload : isWrite = true → body.length = 16 + leAt body 12 4
  region : tbl[leAt body 8 4]? = some r
  bound : leAt body 0 8 + leAt body 12 4 ≤ r.size
  state : stopCopy = false

theorem validAccess_iff {tbl : List Reg} (hs : ∀ r ∈ tbl, r.size < U32) (stopCopy isWrite : Bool) (body : List Byte) :
    validAccess tbl stopCopy isWrite body = true ↔ ∃ r, AccessOk tbl stopCopy isWrite body r := by
  have ho := leAt_lt body 8 0
  have hc := leAt_lt body 4 12
  unfold validAccess
  by_cases h1 : body.length < 16
  · rw [if_pos h1]
    constructor
    · intro h; cases h
    · rintro ⟨r, h⟩; have := h.len; omega
  rw [if_neg h1]
  by_cases h2 : leAt body 12 4 > MAX_XFER
  · rw [if_pos h2]
    constructor
    · intro h; cases h
    · rintro ⟨r, h⟩; have := h.count; simp only [MAX_XFER] at h2; omega
  rw [if_neg h2]
  by_cases h3 : isWrite = true ∧ body.length - 16 ≠ leAt body 12 4
  · rw [if_pos h3]
    constructor
    · intro h; cases h
    · rintro ⟨r, h⟩; have := h.payload h3.1; omega
  rw [if_neg h3]
  cases h4 : tbl[leAt body 8 4]? with
  | none =>
    constructor
    · intro h; cases h
    · rintro ⟨r, h⟩; have := h.region; rw [h4] at this; cases this
  | some r =>
    dsimp only
    have hr := hs r (List.mem_of_getElem? h4)
    have hsat : satadd64 (leAt body 0 8) (leAt body 12 4) ≤ r.size ↔ leAt body 0 8 + leAt body 12 4 ≤ r.size := by
      apply satadd64_le
      · simp only [U64, U32] at *; omega
      · simpa [U64] using ho
      · simp only [U64] at *; omega
    by_cases h5 : satadd64 (leAt body 0 8) (leAt body 12 4) > r.size
    · rw [if_pos h5]
      constructor
      · intro h; cases h
      · rintro ⟨r', h⟩
        have h6 := h.region
        rw [h4] at h6
        injection h6 with h6
        subst h6
        have := hsat.2 h.bound
        omega
    · rw [if_neg h5]
      cases stopCopy with
      | true =>
        constructor
        · intro h; cases h
        · rintro ⟨r', h⟩; cases h.state
      | false =>
        constructor
        · intro _
          refine ⟨r, by omega, by simp only [MAX_XFER] at h2; omega, ?_, h4, hsat.1 (by omega), rfl⟩
          intro hw
          have : ¬ (body.length - 16 ≠ leAt body 12 4) := fun h => h3 ⟨hw, h⟩
          omega
        · intro _; rfl

/-- Which handler serves the region, with which arguments. -/
def served (r : Reg) (isWrite : Bool) (body : List Byte) : Option Call :=
  let buf := if isWrite then body.drop 16 else List.replicate (leAt body 12 4) 0#8
  if leAt body 8 4 = 7 ∧ r.flags &&& 8 = 0 then some (.config (leAt body 0 8) buf isWrite)
  else if r.hasCb then some (.cb (leAt body 8 4) (leAt body 0 8) buf isWrite)
  else none

theorem regionAccess_eq (h : Handler) (r : Reg) (isWrite : Bool) (body : List Byte) :
    regionAccess h r (leAt body 8 4) (if isWrite then body.drop 16 else List.replicate (leAt body 12 4) 0#8)
        (leAt body 0 8) isWrite =
      match served r isWrite body with
      | some c => ((h c).1, (h c).2, [c])
      | none => (.err EINVAL, if isWrite then body.drop 16 else List.replicate (leAt body 12 4) 0#8, []) := by
  unfold regionAccess served
  dsimp only
  by_cases hcf : leAt body 8 4 = 7 ∧ r.flags &&& 8 = 0
  · rw [if_pos (show leAt body 8 4 = CFG_IDX ∧ r.flags &&& FLAG_ALWAYS_CB = 0 from hcf), if_pos hcf]
  · rw [if_neg (show ¬ (leAt body 8 4 = CFG_IDX ∧ r.flags &&& FLAG_ALWAYS_CB = 0) from hcf), if_neg hcf]
    cases r.hasCb <;> rfl

/-- No handler runs unless every condition holds; the request is then refused with EINVAL. -/
theorem C32_refused {tbl : List Reg} (hs : ∀ r ∈ tbl, r.size < U32) (h : Handler) (alloc stopCopy isWrite : Bool)
    {body : List Byte} (h0 : body ≠ []) (hn : ¬ ∃ r, AccessOk tbl stopCopy isWrite body r) :
    handleAccess h alloc tbl stopCopy isWrite body = (.err EINVAL, []) := by
  have hv : validAccess tbl stopCopy isWrite body = false := by
    rw [← validAccess_iff hs] at hn
    simpa using hn
  unfold handleAccess
  rw [if_neg h0, if_pos hv]

/-- If every condition holds, exactly one handler runs, the one for the region, with the request's offset, its
payload (or an all-zero buffer of its length) and direction; with no handler the request fails with EINVAL. An access
of no bytes runs no handler. -/
theorem C32_accepted {tbl : List Reg} (hs : ∀ r ∈ tbl, r.size < U32) (h : Handler) {stopCopy isWrite : Bool}
    {body : List Byte} {r : Reg} (hok : AccessOk tbl stopCopy isWrite body r) :
    (handleAccess h true tbl stopCopy isWrite body).2 =
      (if leAt body 12 4 = 0 then [] else (served r isWrite body).toList) ∧
    (leAt body 12 4 ≠ 0 → served r isWrite body = none →
      (handleAccess h true tbl stopCopy isWrite body).1 = .err EINVAL) := by
  have hv := (validAccess_iff hs stopCopy isWrite body).2 ⟨r, hok⟩
  have h0 : body ≠ [] := by rintro rfl; have := hok.len; simp at this
  unfold handleAccess
  rw [if_neg h0, if_neg (by rw [hv]; decide)]
  dsimp only
  by_cases hz : leAt body 12 4 = 0
  · rw [if_pos hz, if_pos hz]
    exact ⟨rfl, fun h => absurd hz h⟩
  · rw [if_neg hz, if_neg hz, if_neg (by decide), hok.region]
    dsimp only
    rw [regionAccess_eq]
    cases hsv : served r isWrite body with
    | none => exact ⟨rfl, fun _ _ => rfl⟩
    | some c =>
      dsimp only
      refine ⟨?_, fun _ h => by cases h⟩
      rcases (h c).1 with n | e | f
      · dsimp only
        by_cases hn : n ≠ leAt body 12 4
        · rw [if_pos hn]; rfl
        · rw [if_neg hn]; rfl
      · rfl
      · rfl

/-- The READ and WRITE flags of a region are not looked at: a write to a read-only region reaches the callback. -/
theorem C32_flags_ignored : ∃ (tbl : List Reg) (body : List Byte) (r : Reg), tbl[leAt body 8 4]? = some r ∧
    r.flags &&& FLAG_WRITE = 0 ∧
    (handleAccess (fun _ => (.ok 1, [])) true tbl false true body).2 = [.cb 0 2 [5#8] true] :=
  ⟨[{ Reg.blank with flags := 1, size := 16, hasCb := true }], enc 8 2 ++ enc 4 0 ++ enc 4 1 ++ [5#8],
    { Reg.blank with flags := 1, size := 16, hasCb := true }, by decide +kernel, by decide +kernel, by decide +kernel⟩

theorem fit_self {n : Nat} {data : List Byte} (h : data.length = n) : fit n data = data := by
  subst h
  simp [fit]

theorem fit_length (n : Nat) (data : List Byte) : (fit n data).length = n := by
  simp [fit]

/-- What the reply is, by what the handler returned. -/
theorem C33_reply {tbl : List Reg} (hs : ∀ r ∈ tbl, r.size < U32) (h : Handler) {stopCopy isWrite : Bool}
    {body : List Byte} {r : Reg} (hok : AccessOk tbl stopCopy isWrite body r) (hz : leAt body 12 4 ≠ 0) {c : Call}
    (hc : served r isWrite body = some c) :
    (∀ n, (h c).1 = .ok n → n ≠ leAt body 12 4 →
      (handleAccess h true tbl stopCopy isWrite body).1 = .err EINVAL) ∧
    (∀ e, (h c).1 = .err e → (handleAccess h true tbl stopCopy isWrite body).1 = .err e) ∧
    ((h c).1 = .ok (leAt body 12 4) → ∃ reply, (handleAccess h true tbl stopCopy isWrite body).1 = .ok reply ∧
      leAt reply 0 8 = leAt body 0 8 ∧ leAt reply 8 4 = leAt body 8 4 ∧ leAt reply 12 4 = leAt body 12 4 ∧
      reply.length = 16 + (if isWrite then 0 else leAt body 12 4) ∧
      (isWrite = false → (h c).2.length = leAt body 12 4 → reply.drop 16 = (h c).2)) := by
  have hv := (validAccess_iff hs stopCopy isWrite body).2 ⟨r, hok⟩
  have h0 : body ≠ [] := by rintro rfl; have := hok.len; simp at this
  have hres : (handleAccess h true tbl stopCopy isWrite body).1 =
      match (h c).1 with
      | .ok n => if n ≠ leAt body 12 4 then .err EINVAL
        else .ok (enc 8 (leAt body 0 8) ++ enc 4 (leAt body 8 4) ++ enc 4 (leAt body 12 4) ++
          (if isWrite then [] else fit (leAt body 12 4) (h c).2))
      | .err e => .err e
      | .fault f => .fault f := by
    unfold handleAccess
    rw [if_neg h0, if_neg (by rw [hv]; decide)]
    dsimp only
    rw [if_neg hz, if_neg (by decide), hok.region]
    dsimp only
    rw [regionAccess_eq, hc]
    dsimp only
    rcases (h c).1 with n | e | f
    · dsimp only
      by_cases hn : n ≠ leAt body 12 4
      · rw [if_pos hn, if_pos hn]
      · rw [if_neg hn, if_neg hn]
    · rfl
    · rfl
  rw [hres]
  refine ⟨?_, ?_, ?_⟩
  · intro n hn hne
    rw [hn]
    dsimp only
    rw [if_pos hne]
  · intro e he; rw [he]
  · intro hk
    rw [hk]
    dsimp only
    rw [if_neg (fun h => h rfl)]
    have ho := leAt_lt body 8 0
    have hr := leAt_lt body 4 8
    have hn := leAt_lt body 4 12
    generalize hd : (if isWrite = true then ([] : List Byte) else fit (leAt body 12 4) (h c).2) = d
    refine ⟨_, rfl, ?_, ?_, ?_, ?_, ?_⟩
    · have := leAt_field [] (enc 4 (leAt body 8 4) ++ enc 4 (leAt body 12 4) ++ d) 8 (leAt body 0 8) 0 rfl ho
      simpa [List.append_assoc] using this
    · have := leAt_field (enc 8 (leAt body 0 8)) (enc 4 (leAt body 12 4) ++ d) 4 (leAt body 8 4) 8 (enc_length ..) hr
      simpa [List.append_assoc] using this
    · have := leAt_field (enc 8 (leAt body 0 8) ++ enc 4 (leAt body 8 4)) d 4 (leAt body 12 4) 12
        (by simp [enc_length]) hn
      simpa [List.append_assoc] using this
    · rw [← hd]
      cases isWrite <;> simp [enc_length, fit_length]
      omega
    · intro hw hl
      rw [← hd, hw]
      simp only [Bool.false_eq_true, if_false]
      rw [fit_self hl]
      have : (enc 8 (leAt body 0 8) ++ enc 4 (leAt body 8 4) ++ enc 4 (leAt body 12 4)).length = 16 := by
        simp [enc_length]
      rw [List.drop_append, this]
      simp [enc_length]

/-- An access of no bytes succeeds with an empty reply. -/
theorem C33_empty {tbl : List Reg} (hs : ∀ r ∈ tbl, r.size < U32) (h : Handler) (alloc : Bool) {stopCopy isWrite : Bool}
    {body : List Byte} {r : Reg} (hok : AccessOk tbl stopCopy isWrite body r) (hz : leAt body 12 4 = 0) :
    handleAccess h alloc tbl stopCopy isWrite body = (.ok [], []) := by
  have hv := (validAccess_iff hs stopCopy isWrite body).2 ⟨r, hok⟩
  have h0 : body ≠ [] := by rintro rfl; have := hok.len; simp at this
  unfold handleAccess
  rw [if_neg h0, if_neg (by rw [hv]; decide)]
  dsimp only
  rw [if_pos hz]

/-- One BAR of 32 bytes with two areas, a config space of 256 bytes. -/
def tbl0 : List Reg :=
  [{ flags := 3, size := 32, hasCb := true, areas := [(0, 16), (24, 8)], fd := some 5, offset := 4096, subs :=
      [⟨0, 4, some 8, 0, 0, none, 0⟩, ⟨4, 4, some 9, 0, 7, none, 0⟩, ⟨8, 4, some 8, 0, 0, some 9, 3⟩, ⟨12, 4, none, 0, 0, none, 0⟩] },
   Reg.blank, Reg.blank, Reg.blank, Reg.blank, Reg.blank, Reg.blank,
   { Reg.blank with flags := 3, size := 256 }, Reg.blank]

theorem tbl0_small : ∀ r ∈ tbl0, r.size < U32 := by decide

def rd0 : List Byte := enc 8 30 ++ enc 4 0 ++ enc 4 2

example : AccessOk tbl0 false false rd0 tbl0[0] :=
  ⟨by decide +kernel, by decide +kernel, by decide +kernel, by decide +kernel, by decide +kernel, rfl⟩
example : handleAccess (fun _ => (.ok 2, [7#8, 9#8])) true tbl0 false false rd0 =
    (.ok (rd0 ++ [7#8, 9#8]), [.cb 0 30 [0#8, 0#8] false]) := by decide +kernel
example : handleAccess (fun _ => (.ok 2, [7#8, 9#8])) true tbl0 false false (enc 8 31 ++ enc 4 0 ++ enc 4 2) =
    (.err EINVAL, []) := by decide +kernel
example : handleAccess (fun _ => (.ok 2, [7#8, 9#8])) true tbl0 false false
    (enc 8 0xffffffffffffffff ++ enc 4 0 ++ enc 4 2) = (.err EINVAL, []) := by decide +kernel
example : handleAccess (fun _ => (.ok 2, [])) true tbl0 false true (enc 8 4 ++ enc 4 7 ++ enc 4 2 ++ [6#8, 0#8]) =
    (.ok (enc 8 4 ++ enc 4 7 ++ enc 4 2), [.config 4 [6#8, 0#8] true]) := by decide +kernel

/-! ## C34: region info -/

theorem leAt_left {a b : List Byte} {n off : Nat} (h : off + n ≤ a.length) : leAt (a ++ b) off n = leAt a off n :=
  leAt_append_left a b n off h

theorem leAt_right {a b : List Byte} {n off k : Nat} (h : a.length = k) : leAt (a ++ b) (k + off) n = leAt b off n := by
  subst h; exact leAt_append_right a b n off

/-- Fixed-size records in a row. -/
theorem leAt_records {α : Type} (f : α → List Byte) (w : Nat) (hf : ∀ x, (f x).length = w) (n o : Nat) (h : o + n ≤ w) :
    ∀ (l : List α) (i : Nat) (hi : i < l.length), leAt (l.flatMap f) (w * i + o) n = leAt (f l[i]) o n := by
  intro l
  induction l with
  | nil => intro i hi; simp at hi
  | cons x l ih =>
    intro i hi
    rw [List.flatMap_cons]
    cases i with
    | zero =>
      rw [Nat.mul_zero, Nat.zero_add]
      exact leAt_left (by rw [hf]; exact h)
    | succ i =>
      have : w * (i + 1) + o = w + (w * i + o) := by rw [Nat.mul_succ]; omega
      rw [this, leAt_right (hf x)]
      exact ih i (by simpa using hi)

theorem records_length {α : Type} (f : α → List Byte) (w : Nat) (hf : ∀ x, (f x).length = w) (l : List α) :
    (l.flatMap f).length = w * l.length := by
  induction l with
  | nil => simp
  | cons x l ih => rw [List.flatMap_cons, List.length_append, ih, hf, List.length_cons, Nat.mul_succ]; omega

/-- The size a complete description of a region needs. -/
def needed (r : Reg) : Nat := if r.size > 0 ∧ r.areas ≠ [] then 48 + 16 * r.areas.length else 32

/-- The fixed fields of the reply: size needed, index, size and offset, and the READ, WRITE and MMAP bits. -/
structure InfoFields (reply : List Byte) (index : Nat) (r : Reg) : Prop where
  argsz : leAt reply 0 4 = needed r
  read : (leAt reply 4 4).testBit 0 = r.flags.testBit 0
  write : (leAt reply 4 4).testBit 1 = r.flags.testBit 1
  mmap : (leAt reply 4 4).testBit 2 = r.fd.isSome
  index : leAt reply 8 4 = index
  size : leAt reply 16 8 = r.size
  offset : leAt reply 24 8 = r.offset

theorem bits_flags (fl : Nat) (fd : Option Fd) (cap : Nat) (hc : cap = 0 ∨ cap = 8) :
    let b := (if fl &&& FLAG_READ ≠ 0 then 1 else 0) + (if fl &&& FLAG_WRITE ≠ 0 then 2 else 0) +
      (if fd ≠ none then 4 else 0) + cap
    b < 16 ∧ b.testBit 0 = fl.testBit 0 ∧ b.testBit 1 = fl.testBit 1 ∧ b.testBit 2 = fd.isSome ∧
      b.testBit 3 = decide (cap = 8) := by
  intro b
  have h0 : fl.testBit 0 = decide (fl &&& FLAG_READ ≠ 0) := by
    simp only [FLAG_READ, Nat.testBit_zero, Nat.and_one_is_mod]
    have : fl % 2 = 0 ∨ fl % 2 = 1 := by omega
    rcases this with h | h <;> simp [h]
  have h1 : fl.testBit 1 = decide (fl &&& FLAG_WRITE ≠ 0) := by
    have : fl &&& FLAG_WRITE = 2 * ((fl / 2) % 2) := by
      have h2 : fl &&& 2 ^ 1 = 2 ^ 1 * (fl.testBit 1).toNat := by
        apply Nat.eq_of_testBit_eq
        intro i
        rw [Nat.testBit_and, Nat.testBit_two_pow]
        cases hb : fl.testBit 1 with
        | false =>
          by_cases hi : 1 = i
          · subst hi; simp [hb]
          · simp [hi]
        | true =>
          simp only [Bool.toNat_true, Nat.mul_one, Nat.testBit_two_pow]
          by_cases hi : 1 = i
          · subst hi; simp [hb]
          · simp [hi]
      have h3 : (fl.testBit 1).toNat = fl / 2 % 2 := by
        rw [Nat.testBit_succ, Nat.testBit_zero]
        have : fl / 2 % 2 = 0 ∨ fl / 2 % 2 = 1 := by omega
        rcases this with h | h <;> simp [h]
      rw [← h3]
      exact h2
    rw [this, Nat.testBit_succ, Nat.testBit_zero]
    have : fl / 2 % 2 = 0 ∨ fl / 2 % 2 = 1 := by omega
    rcases this with h | h <;> simp [h]
  rw [h0, h1]
  have hb : b = (if fl &&& FLAG_READ ≠ 0 then 1 else 0) + (if fl &&& FLAG_WRITE ≠ 0 then 2 else 0) +
      (if fd ≠ none then 4 else 0) + cap := rfl
  rw [hb]
  cases fd with
  | none =>
    by_cases hr : fl &&& FLAG_READ ≠ 0 <;> by_cases hw : fl &&& FLAG_WRITE ≠ 0 <;>
      rcases hc with rfl | rfl <;> simp only [hr, hw, if_true, if_false, not_false_eq_true, ne_eq] <;> decide
  | some x =>
    have hx : (some x : Option Fd) ≠ none := by simp
    by_cases hr : fl &&& FLAG_READ ≠ 0 <;> by_cases hw : fl &&& FLAG_WRITE ≠ 0 <;>
      rcases hc with rfl | rfl <;>
      simp only [hr, hw, hx, if_true, if_false, not_false_eq_true, ne_eq, Option.isSome_some] <;> decide

theorem hdr_fields {r : Reg} {index need fl cap : Nat} (rest : List Byte) (hn : need = needed r) (hnl : need < U32)
    (hfl : fl < 16) (hi : index < U32) (hcap : cap < U32) (hs : r.size < U32) (ho : r.offset < U64)
    (h0 : fl.testBit 0 = r.flags.testBit 0) (h1 : fl.testBit 1 = r.flags.testBit 1) (h2 : fl.testBit 2 = r.fd.isSome) :
    let reply := enc 4 need ++ enc 4 fl ++ enc 4 index ++ enc 4 cap ++ enc 8 r.size ++ enc 8 r.offset ++ rest
    InfoFields reply index r ∧ leAt reply 4 4 = fl ∧ leAt reply 12 4 = cap := by
  intro reply
  have e0 : leAt reply 0 4 = need := by
    have := leAt_field [] (enc 4 fl ++ enc 4 index ++ enc 4 cap ++ enc 8 r.size ++ enc 8 r.offset ++ rest) 4 need 0 rfl
      (by simpa [U32] using hnl)
    simpa [reply, List.append_assoc] using this
  have e1 : leAt reply 4 4 = fl := by
    have := leAt_field (enc 4 need) (enc 4 index ++ enc 4 cap ++ enc 8 r.size ++ enc 8 r.offset ++ rest) 4 fl 4
      (enc_length ..) (by omega)
    simpa [reply, List.append_assoc] using this
  have e2 : leAt reply 8 4 = index := by
    have := leAt_field (enc 4 need ++ enc 4 fl) (enc 4 cap ++ enc 8 r.size ++ enc 8 r.offset ++ rest) 4 index 8
      (by simp [enc_length]) (by simpa [U32] using hi)
    simpa [reply, List.append_assoc] using this
  have e3 : leAt reply 12 4 = cap := by
    have := leAt_field (enc 4 need ++ enc 4 fl ++ enc 4 index) (enc 8 r.size ++ enc 8 r.offset ++ rest) 4 cap 12
      (by simp [enc_length]) (by simpa [U32] using hcap)
    simpa [reply, List.append_assoc] using this
  have e4 : leAt reply 16 8 = r.size := by
    have := leAt_field (enc 4 need ++ enc 4 fl ++ enc 4 index ++ enc 4 cap) (enc 8 r.offset ++ rest) 8 r.size 16
      (by simp [enc_length]) (by simp only [U32] at hs; omega)
    simpa [reply, List.append_assoc] using this
  have e5 : leAt reply 24 8 = r.offset := by
    have := leAt_field (enc 4 need ++ enc 4 fl ++ enc 4 index ++ enc 4 cap ++ enc 8 r.size) rest 8 r.offset 24
      (by simp [enc_length]) (by simpa [U64] using ho)
    simpa [reply, List.append_assoc] using this
  exact ⟨⟨by rw [e0, hn], by rw [e1, h0], by rw [e1, h1], by rw [e1, h2], e2, e4, e5⟩, e1, e3⟩

/-- The entries of the table are within the C types. -/
structure RegOk (r : Reg) : Prop where
  size : r.size < U32
  offset : r.offset < U64
  areas : 48 + 16 * r.areas.length < U32
  words : ∀ a ∈ r.areas, a.1 < U64 ∧ a.2 < U64

theorem C34_refused (alloc : Bool) (tbl : List Reg) (body : List Byte)
    (h : body.length < 32 ∨ leAt body 0 4 < 32 ∨ tbl.length ≤ leAt body 8 4) :
    regionInfo alloc tbl body = .err EINVAL := by
  unfold regionInfo
  by_cases h1 : body.length < 32 ∨ leAt body 0 4 < 32
  · rw [if_pos h1]
  · rw [if_neg h1, List.getElem?_eq_none (by omega)]

/-- The reply is never larger than `argsz`; it says how much is needed and describes the region. The areas are
listed, in order, and the descriptor is attached exactly when there are areas and the client left room. -/
theorem C34_info {tbl : List Reg} {body : List Byte} {r : Reg} (hl : 32 ≤ body.length) (ha : 32 ≤ leAt body 0 4)
    (hr : tbl[leAt body 8 4]? = some r) (hok : RegOk r) :
    ∃ reply, regionInfo true tbl body = .ok reply ∧
      reply.body.length ≤ leAt body 0 4 ∧ InfoFields reply.body (leAt body 8 4) r ∧
      (r.size > 0 → r.areas ≠ [] → needed r ≤ leAt body 0 4 →
        (leAt reply.body 4 4).testBit 3 = true ∧ leAt reply.body 12 4 = 32 ∧
        reply.body.length = needed r ∧ reply.fds = [r.fd] ∧
        leAt reply.body 32 2 = 1 ∧ leAt reply.body 34 2 = 1 ∧ leAt reply.body 36 4 = 0 ∧
        leAt reply.body 40 4 = r.areas.length ∧
        ∀ i (hi : i < r.areas.length), leAt reply.body (48 + 16 * i) 8 = r.areas[i].1 ∧
          leAt reply.body (48 + 16 * i + 8) 8 = r.areas[i].2) ∧
      (r.size = 0 ∨ r.areas = [] ∨ leAt body 0 4 < needed r →
        (leAt reply.body 4 4).testBit 3 = false ∧ leAt reply.body 12 4 = 0 ∧ reply.fds = [] ∧
        reply.body.length = min (needed r) (leAt body 0 4)) := by
  have hi : leAt body 8 4 < U32 := by have := leAt_lt body 4 8; simpa [U32] using this
  have hcaps : (if r.size > 0 then capsSize r else 0) = needed r - 32 := by
    unfold capsSize needed
    by_cases h1 : r.size > 0
    · rw [if_pos h1]
      by_cases h2 : r.areas = []
      · rw [if_neg (by simp [h2]), if_neg (by simp [h2])]
      · rw [if_pos (by simpa using h2), if_pos ⟨h1, h2⟩]
        omega
    · rw [if_neg h1, if_neg (by simp [h1])]
  have hge : 32 ≤ needed r := by unfold needed; split <;> omega
  have hlt : needed r < U32 := by
    have := hok.areas
    unfold needed
    split
    · exact this
    · decide
  have hmod : (32 + (needed r - 32)) % U32 = needed r := by
    rw [Nat.add_sub_cancel' hge]
    exact Nat.mod_eq_of_lt hlt
  unfold regionInfo
  rw [if_neg (by omega), hr]
  dsimp only
  rw [hcaps, hmod, if_neg (by decide)]
  by_cases hfit : needed r - 32 > 0 ∧ leAt body 0 4 ≥ needed r
  · rw [if_pos hfit, if_neg (by omega)]
    obtain ⟨b0, b1, b2, b3, b4⟩ := bits_flags r.flags r.fd 8 (.inr rfl)
    obtain ⟨hf, e1, e3⟩ := hdr_fields (r := r) (index := leAt body 8 4) (cap := 32) (capBytes r.areas) rfl hlt b0 hi
      (by decide) hok.size hok.offset b1 b2 b3
    have hne : r.size > 0 ∧ r.areas ≠ [] := by
      by_contra hc
      have : needed r = 32 := by unfold needed; rw [if_neg hc]
      omega
    have hneed : needed r = 48 + 16 * r.areas.length := by unfold needed; rw [if_pos hne]
    refine ⟨_, rfl, ?_, hf, ?_, ?_⟩
    · simp only [capBytes, List.length_append, enc_length,
        records_length (fun a : Nat × Nat => enc 8 a.1 ++ enc 8 a.2) 16 (by simp [enc_length])]
      omega
    · intro _ _ _
      have hlen : (enc 4 (needed r) ++ enc 4 ((if r.flags &&& FLAG_READ ≠ 0 then 1 else 0) +
          (if r.flags &&& FLAG_WRITE ≠ 0 then 2 else 0) + (if r.fd ≠ none then 4 else 0) + 8) ++
          enc 4 (leAt body 8 4) ++ enc 4 32 ++ enc 8 r.size ++ enc 8 r.offset).length = 32 := by simp [enc_length]
      have hn32 : r.areas.length < 256 ^ 4 := by have := hok.areas; simp only [U32] at this; omega
      refine ⟨?_, e3, ?_, rfl, ?_, ?_, ?_, ?_, ?_⟩
      · rw [e1, b4]; rfl
      · simp only [capBytes, List.length_append, enc_length,
          records_length (fun a : Nat × Nat => enc 8 a.1 ++ enc 8 a.2) 16 (by simp [enc_length])]
        omega
      · rw [show 32 = 32 + 0 from rfl, leAt_right hlen]
        have := leAt_field [] (enc 2 1 ++ enc 4 0 ++ enc 4 r.areas.length ++ enc 4 0 ++
          r.areas.flatMap (fun a => enc 8 a.1 ++ enc 8 a.2)) 2 1 0 rfl (by decide)
        simpa [capBytes, List.append_assoc] using this
      · rw [show 34 = 32 + 2 from rfl, leAt_right hlen]
        have := leAt_field (enc 2 1) (enc 4 0 ++ enc 4 r.areas.length ++ enc 4 0 ++
          r.areas.flatMap (fun a => enc 8 a.1 ++ enc 8 a.2)) 2 1 2 (enc_length ..) (by decide)
        simpa [capBytes, List.append_assoc] using this
      · rw [show 36 = 32 + 4 from rfl, leAt_right hlen]
        have := leAt_field (enc 2 1 ++ enc 2 1) (enc 4 r.areas.length ++ enc 4 0 ++
          r.areas.flatMap (fun a => enc 8 a.1 ++ enc 8 a.2)) 4 0 4 (by simp [enc_length]) (by decide)
        simpa [capBytes, List.append_assoc] using this
      · rw [show 40 = 32 + 8 from rfl, leAt_right hlen]
        have := leAt_field (enc 2 1 ++ enc 2 1 ++ enc 4 0) (enc 4 0 ++
          r.areas.flatMap (fun a => enc 8 a.1 ++ enc 8 a.2)) 4 r.areas.length 8 (by simp [enc_length]) hn32
        simpa [capBytes, List.append_assoc] using this
      · intro i hia
        have hw := hok.words _ (List.getElem_mem hia)
        have hl16 : (enc 2 1 ++ enc 2 1 ++ enc 4 0 ++ enc 4 r.areas.length ++ enc 4 0).length = 16 := by
          simp [enc_length]
        have hrec := leAt_records (fun a : Nat × Nat => enc 8 a.1 ++ enc 8 a.2) 16 (by simp [enc_length]) 8
        constructor
        · rw [show 48 + 16 * i = 32 + (16 + (16 * i + 0)) by omega, leAt_right hlen]
          unfold capBytes
          rw [leAt_right hl16, hrec 0 (by omega) r.areas i hia]
          have := leAt_field [] (enc 8 r.areas[i].2) 8 r.areas[i].1 0 rfl (by simpa [U64] using hw.1)
          simpa using this
        · rw [show 48 + 16 * i + 8 = 32 + (16 + (16 * i + 8)) by omega, leAt_right hlen]
          unfold capBytes
          rw [leAt_right hl16, hrec 8 (by omega) r.areas i hia]
          have := leAt_field (enc 8 r.areas[i].1) [] 8 r.areas[i].2 8 (enc_length ..) (by simpa [U64] using hw.2)
          simpa using this
    · intro h
      exfalso
      rcases h with h | h | h
      · omega
      · exact hne.2 h
      · omega
  · rw [if_neg hfit]
    obtain ⟨b0, b1, b2, b3, b4⟩ := bits_flags r.flags r.fd 0 (.inl rfl)
    simp only [Nat.add_zero] at b0 b1 b2 b3 b4
    obtain ⟨hf, e1, e3⟩ := hdr_fields (r := r) (index := leAt body 8 4) (cap := 0)
      (List.replicate (min (32 + (needed r - 32)) (leAt body 0 4) - 32) 0#8) rfl hlt b0 hi
      (by decide) hok.size hok.offset b1 b2 b3
    refine ⟨_, rfl, ?_, hf, ?_, ?_⟩
    · simp only [List.length_append, enc_length, List.length_replicate]
      omega
    · intro h1 h2 h3
      exfalso
      have : needed r = 48 + 16 * r.areas.length := by unfold needed; rw [if_pos ⟨h1, h2⟩]
      omega
    · intro _
      refine ⟨by rw [e1, b4]; rfl, e3, rfl, ?_⟩
      simp only [List.length_append, enc_length, List.length_replicate]
      omega

example : RegOk tbl0[0] := ⟨by decide, by decide, by decide, by decide⟩
example : (regionInfo true tbl0 (enc 4 80 ++ enc 4 0 ++ enc 4 0 ++ enc 4 0 ++ enc 8 0 ++ enc 8 0)) =
    .ok ⟨enc 4 80 ++ enc 4 15 ++ enc 4 0 ++ enc 4 32 ++ enc 8 32 ++ enc 8 4096 ++ enc 2 1 ++ enc 2 1 ++ enc 4 0 ++
      enc 4 2 ++ enc 4 0 ++ enc 8 0 ++ enc 8 16 ++ enc 8 24 ++ enc 8 8, [some 5]⟩ := by decide +kernel
example : (regionInfo true tbl0 (enc 4 79 ++ enc 4 0 ++ enc 4 0 ++ enc 4 0 ++ enc 8 0 ++ enc 8 0)) =
    .ok ⟨enc 4 80 ++ enc 4 7 ++ enc 4 0 ++ enc 4 0 ++ enc 8 32 ++ enc 8 4096 ++ List.replicate 47 0#8, []⟩ := by
  decide +kernel

/-! ## C35: ioeventfds -/

/-- The index field of a sub-region names a descriptor: all ones stand for none. -/
def Names (fds : List Fd) (idx : Nat) (fd : Option Fd) : Prop :=
  match fd with
  | none => idx = 0xffffffff
  | some x => ∃ h : idx < fds.length, fds[idx] = x

/-- The 48 bytes at `off` describe the sub-region. -/
structure Described (reply : List Byte) (off : Nat) (fds : List Fd) (s : Sub) : Prop where
  gpa : leAt reply off 8 = s.gpaOffset
  size : leAt reply (off + 8) 8 = s.size
  fd : Names fds (leAt reply (off + 16) 4) s.fd
  type : leAt reply (off + 20) 4 = if s.shadowFd = none then 0 else 2
  flags : leAt reply (off + 24) 4 = s.flags
  shadow : ∀ x, s.shadowFd = some x → Names fds (leAt reply (off + 28) 4) (some x)
  shadowOffset : leAt reply (off + 32) 8 = s.shadowOffset
  datamatch : leAt reply (off + 40) 8 = s.datamatch

/-- Within the C types. -/
structure SubOk (s : Sub) : Prop where
  gpa : s.gpaOffset < U64
  size : s.size < U64
  flags : s.flags < U32
  shadowOffset : s.shadowOffset < U64
  datamatch : s.datamatch < U64

theorem names_mono {a b : List Fd} {i : Nat} {fd : Option Fd} (hp : a <+: b) (h : Names a i fd) : Names b i fd := by
  cases fd with
  | none => exact h
  | some x =>
    obtain ⟨hi, he⟩ := h
    obtain ⟨t, rfl⟩ := hp
    exact ⟨by rw [List.length_append]; omega, by rw [List.getElem_append_left hi]; exact he⟩

/-- How many descriptors a sub-region can add. -/
def adds (s : Sub) : Nat := (if s.fd = none then 0 else 1) + (if s.shadowFd = none then 0 else 1)

theorem addFd_spec {cap : Nat} {fds : List Fd} {fd : Option Fd} (hn : fds.Nodup)
    (hc : fds.length + (if fd = none then 0 else 1) ≤ cap) (hsm : cap < U32) :
    ∃ fds' i, addFdIndex cap fds fd = .ok (fds', i) ∧ fds'.Nodup ∧ fds <+: fds' ∧ Names fds' (idx32 i) fd ∧
      idx32 i < U32 ∧ fds'.length ≤ fds.length + (if fd = none then 0 else 1) ∧
      (∀ x ∈ fds', x ∈ fds ∨ fd = some x) := by
  cases fd with
  | none => exact ⟨fds, none, rfl, hn, List.prefix_rfl, rfl, by decide, by simp, fun x h => .inl h⟩
  | some x =>
    simp only [reduceCtorEq, if_false] at hc
    unfold addFdIndex
    dsimp only
    cases hf : fds.findIdx? (· == x) with
    | some i =>
      rw [List.findIdx?_eq_some_iff_getElem] at hf
      obtain ⟨hi, he, _⟩ := hf
      refine ⟨fds, some i, rfl, hn, List.prefix_rfl, ⟨hi, by simpa [idx32] using he⟩, ?_, by simp, fun x h => .inl h⟩
      simp only [idx32]
      omega
    | none =>
      rw [List.findIdx?_eq_none_iff] at hf
      dsimp only
      rw [if_pos (by omega)]
      refine ⟨_, _, rfl, ?_, List.prefix_append _ _, ⟨by simp [idx32], by simp [idx32]⟩, by simp only [idx32]; omega,
        by simp, ?_⟩
      · rw [List.nodup_append]
        refine ⟨hn, by simp, ?_⟩
        intro a ha b hb
        rw [List.mem_singleton] at hb
        subst hb
        intro hab
        subst hab
        have := hf a ha
        simp at this
      · intro y hy
        rcases List.mem_append.1 hy with h | h
        · exact .inl h
        · rw [List.mem_singleton] at h; exact .inr (by rw [h])

theorem rec48 {g sz i t fl j so dm : Nat} (hg : g < U64) (hsz : sz < U64) (hi : i < U32) (ht : t < U32) (hfl : fl < U32)
    (hj : j < U32) (hso : so < U64) (hdm : dm < U64) (a rest : List Byte) (off : Nat) (ha : a.length = off) :
    let b := a ++ (enc 8 g ++ enc 8 sz ++ enc 4 i ++ enc 4 t ++ enc 4 fl ++ enc 4 j ++ enc 8 so ++ enc 8 dm) ++ rest
    leAt b off 8 = g ∧ leAt b (off + 8) 8 = sz ∧ leAt b (off + 16) 4 = i ∧ leAt b (off + 20) 4 = t ∧
    leAt b (off + 24) 4 = fl ∧ leAt b (off + 28) 4 = j ∧ leAt b (off + 32) 8 = so ∧ leAt b (off + 40) 8 = dm := by
  intro b
  simp only [U64, U32] at *
  refine ⟨?_, ?_, ?_, ?_, ?_, ?_, ?_, ?_⟩
  · have := leAt_field a (enc 8 sz ++ enc 4 i ++ enc 4 t ++ enc 4 fl ++ enc 4 j ++ enc 8 so ++ enc 8 dm ++ rest) 8 g off
      ha (by omega)
    simpa [b, List.append_assoc] using this
  · have := leAt_field (a ++ enc 8 g) (enc 4 i ++ enc 4 t ++ enc 4 fl ++ enc 4 j ++ enc 8 so ++ enc 8 dm ++ rest) 8 sz
      (off + 8) (by simp [enc_length, ha]) (by omega)
    simpa [b, List.append_assoc] using this
  · have := leAt_field (a ++ enc 8 g ++ enc 8 sz) (enc 4 t ++ enc 4 fl ++ enc 4 j ++ enc 8 so ++ enc 8 dm ++ rest) 4 i
      (off + 16) (by simp [enc_length, ha]) (by omega)
    simpa [b, List.append_assoc] using this
  · have := leAt_field (a ++ enc 8 g ++ enc 8 sz ++ enc 4 i) (enc 4 fl ++ enc 4 j ++ enc 8 so ++ enc 8 dm ++ rest) 4 t
      (off + 20) (by simp [enc_length, ha]) (by omega)
    simpa [b, List.append_assoc] using this
  · have := leAt_field (a ++ enc 8 g ++ enc 8 sz ++ enc 4 i ++ enc 4 t) (enc 4 j ++ enc 8 so ++ enc 8 dm ++ rest) 4 fl
      (off + 24) (by simp [enc_length, ha]) (by omega)
    simpa [b, List.append_assoc] using this
  · have := leAt_field (a ++ enc 8 g ++ enc 8 sz ++ enc 4 i ++ enc 4 t ++ enc 4 fl) (enc 8 so ++ enc 8 dm ++ rest) 4 j
      (off + 28) (by simp [enc_length, ha]) (by omega)
    simpa [b, List.append_assoc] using this
  · have := leAt_field (a ++ enc 8 g ++ enc 8 sz ++ enc 4 i ++ enc 4 t ++ enc 4 fl ++ enc 4 j) (enc 8 dm ++ rest) 8 so
      (off + 32) (by simp [enc_length, ha]) (by omega)
    simpa [b, List.append_assoc] using this
  · have := leAt_field (a ++ enc 8 g ++ enc 8 sz ++ enc 4 i ++ enc 4 t ++ enc 4 fl ++ enc 4 j ++ enc 8 so) rest 8 dm
      (off + 40) (by simp [enc_length, ha]) (by omega)
    simpa [b, List.append_assoc] using this

theorem subBytes_spec {cap : Nat} {fds : List Fd} {s : Sub} (hs : SubOk s) (hn : fds.Nodup)
    (hc : fds.length + adds s ≤ cap) (hsm : cap < U32) :
    ∃ fds' b, subBytes cap fds s = .ok (fds', b) ∧ fds'.Nodup ∧ fds <+: fds' ∧ fds'.length ≤ fds.length + adds s ∧
      b.length = 48 ∧ (∀ x ∈ fds', x ∈ fds ∨ s.fd = some x ∨ s.shadowFd = some x) ∧
      (∀ (a rest : List Byte) (all : List Fd), fds' <+: all → Described (a ++ b ++ rest) a.length all s) := by
  unfold adds at hc
  obtain ⟨f1, i, e1, n1, p1, m1, l1, c1, x1⟩ := addFd_spec (fd := s.fd) hn (by omega) hsm
  unfold subBytes
  rw [e1]
  dsimp only
  cases hsh : s.shadowFd with
  | none =>
    dsimp only
    refine ⟨_, _, rfl, n1, p1, ?_, by simp [enc_length], ?_, ?_⟩
    · unfold adds; rw [hsh]; simpa using c1
    · intro x hx
      rcases x1 x hx with h | h
      · exact .inl h
      · exact .inr (.inl h)
    · intro a rest all hp
      obtain ⟨q1, q2, q3, q4, q5, q6, q7, q8⟩ := rec48 hs.gpa hs.size l1 (show (0 : Nat) < U32 by decide) hs.flags
        (show (0 : Nat) < U32 by decide) hs.shadowOffset hs.datamatch a rest _ rfl
      exact ⟨q1, q2, by rw [q3]; exact names_mono hp m1, by rw [q4, hsh]; rfl, q5, (by intro x hx; rw [hsh] at hx; cases hx),
        q7, q8⟩
  | some x =>
    dsimp only
    rw [hsh] at hc
    simp only [reduceCtorEq, if_false] at hc
    obtain ⟨f2, j, e2, n2, p2, m2, l2, c2, x2⟩ := addFd_spec (fd := some x) n1 (by simp only [reduceCtorEq, if_false]; omega) hsm
    rw [e2]
    dsimp only
    refine ⟨_, _, rfl, n2, p1.trans p2, ?_, by simp [enc_length], ?_, ?_⟩
    · unfold adds
      rw [hsh]
      simp only [reduceCtorEq, if_false] at c2 ⊢
      omega
    · intro y hy
      rcases x2 y hy with h | h
      · rcases x1 y h with h | h
        · exact .inl h
        · exact .inr (.inl h)
      · exact .inr (.inr h)
    · intro a rest all hp
      obtain ⟨q1, q2, q3, q4, q5, q6, q7, q8⟩ := rec48 hs.gpa hs.size l1 (show (2 : Nat) < U32 by decide) hs.flags
        l2 hs.shadowOffset hs.datamatch a rest _ rfl
      refine ⟨q1, q2, ?_, by rw [q4, hsh]; rfl, q5, ?_, q7, q8⟩
      · rw [q3]; exact names_mono (p2.trans hp) m1
      · intro y hy
        rw [hsh] at hy
        injection hy with hy
        subst hy
        rw [q6]
        exact names_mono hp m2

def totalAdds (ss : List Sub) : Nat := (ss.map adds).foldr (· + ·) 0

theorem subsLoop_spec {cap : Nat} (hsm : cap < U32) (ss : List Sub) : ∀ (fds : List Fd), (∀ s ∈ ss, SubOk s) → fds.Nodup →
    fds.length + totalAdds ss ≤ cap →
    ∃ fds' bs, subsLoop cap ss fds = .ok (fds', bs) ∧ fds'.Nodup ∧ fds <+: fds' ∧ bs.length = 48 * ss.length ∧
      (∀ x ∈ fds', x ∈ fds ∨ ∃ s ∈ ss, s.fd = some x ∨ s.shadowFd = some x) ∧
      (∀ (a : List Byte) i (hi : i < ss.length), Described (a ++ bs) (a.length + 48 * i) fds' ss[i]) := by
  induction ss with
  | nil =>
    intro fds _ hn _
    exact ⟨fds, [], rfl, hn, List.prefix_rfl, rfl, fun x h => .inl h, fun a i hi => by simp at hi⟩
  | cons s ss ih =>
    intro fds hs hn hc
    have hc' : fds.length + (adds s + totalAdds ss) ≤ cap := hc
    obtain ⟨f1, b, e1, n1, p1, l1, hb, x1, d1⟩ := subBytes_spec (hs s (List.mem_cons_self ..)) hn (cap := cap) (by omega) hsm
    obtain ⟨f2, bs, e2, n2, p2, hbs, x2, d2⟩ := ih f1 (fun t ht => hs t (List.mem_cons_of_mem _ ht)) n1 (by omega)
    simp only [subsLoop, e1, e2]
    refine ⟨f2, b ++ bs, rfl, n2, p1.trans p2, ?_, ?_, ?_⟩
    · rw [List.length_append, hb, hbs, List.length_cons]; omega
    · intro x hx
      rcases x2 x hx with h | ⟨t, ht, h⟩
      · rcases x1 x h with h | h
        · exact .inl h
        · exact .inr ⟨s, List.mem_cons_self .., h⟩
      · exact .inr ⟨t, List.mem_cons_of_mem _ ht, h⟩
    · intro a i hi
      cases i with
      | zero =>
        have := d1 a bs f2 p2
        simpa [List.append_assoc] using this
      | succ i =>
        have := d2 (a ++ b) i (by simpa using hi)
        rw [List.length_append, hb] at this
        have e : a.length + 48 * (i + 1) = a.length + 48 + 48 * i := by omega
        rw [e, ← List.append_assoc]
        exact this

theorem totalAdds_le (ss : List Sub) : totalAdds ss ≤ ss.length + (ss.filter (fun s => s.shadowFd != none)).length := by
  induction ss with
  | nil => simp [totalAdds]
  | cons s ss ih =>
    have e : totalAdds (s :: ss) = adds s + totalAdds ss := rfl
    rw [e, List.length_cons, List.filter_cons]
    unfold adds
    cases hsh : s.shadowFd with
    | none =>
      have : ((none : Option Fd) != none) = false := rfl
      rw [this]
      simp only [if_true, Bool.false_eq_true, if_false]
      split <;> omega
    | some x =>
      have : ((some x : Option Fd) != none) = true := rfl
      rw [this]
      simp only [reduceCtorEq, if_false, if_true, List.length_cons]
      split <;> omega

/-- With room for all sub-regions the reply describes each of them in order; descriptors are sent without
duplicates, each index names exactly the registered descriptor, and no other descriptor is sent. -/
theorem C35_complete {tbl : List Reg} {body : List Byte} {r : Reg} (hl : 16 ≤ body.length) (hf : leAt body 4 4 = 0)
    (hc : leAt body 12 4 = 0) (hr : tbl[leAt body 8 4]? = some r) (hfl : r.flags &&& FLAG_MASK ≠ 0)
    (hs : ∀ s ∈ r.subs, SubOk s) (hfit : 16 + 48 * r.subs.length ≤ leAt body 0 4) (hmax : leAt body 0 4 ≤ 1048576) :
    ∃ reply fds, regionIoFds true tbl body = .ok { body := reply, fds := fds.map some } ∧
      reply.length = 16 + 48 * r.subs.length ∧ leAt reply 0 4 = 16 + 48 * r.subs.length ∧ leAt reply 4 4 = 0 ∧
      leAt reply 8 4 = leAt body 8 4 ∧ leAt reply 12 4 = r.subs.length ∧
      fds.Nodup ∧ (∀ x ∈ fds, ∃ s ∈ r.subs, s.fd = some x ∨ s.shadowFd = some x) ∧
      (∀ i (hi : i < r.subs.length), Described reply (16 + 48 * i) fds r.subs[i]) := by
  have hu : U32 = 4294967296 := rfl
  have hi := leAt_lt body 4 8
  have hmod : (16 + r.subs.length * 48) % U32 = 16 + 48 * r.subs.length := by
    rw [Nat.mod_eq_of_lt (by omega)]; omega
  have hmin : min ((leAt body 0 4 - 16) / 48) r.subs.length = r.subs.length := by
    apply Nat.min_eq_right
    omega
  have hhdr : ∀ rest : List Byte,
      let b := (enc 4 (16 + 48 * r.subs.length) ++ enc 4 0 ++ enc 4 (leAt body 8 4) ++ enc 4 r.subs.length) ++ rest
      leAt b 0 4 = 16 + 48 * r.subs.length ∧ leAt b 4 4 = 0 ∧ leAt b 8 4 = leAt body 8 4 ∧
      leAt b 12 4 = r.subs.length := by
    intro rest b
    refine ⟨?_, ?_, ?_, ?_⟩
    · have := leAt_field [] (enc 4 0 ++ enc 4 (leAt body 8 4) ++ enc 4 r.subs.length ++ rest) 4
        (16 + 48 * r.subs.length) 0 rfl (by omega)
      simpa [b, List.append_assoc] using this
    · have := leAt_field (enc 4 (16 + 48 * r.subs.length)) (enc 4 (leAt body 8 4) ++ enc 4 r.subs.length ++ rest) 4
        0 4 (by simp [enc_length]) (by omega)
      simpa [b, List.append_assoc] using this
    · have := leAt_field (enc 4 (16 + 48 * r.subs.length) ++ enc 4 0) (enc 4 r.subs.length ++ rest) 4
        (leAt body 8 4) 8 (by simp [enc_length]) hi
      simpa [b, List.append_assoc] using this
    · have := leAt_field (enc 4 (16 + 48 * r.subs.length) ++ enc 4 0 ++ enc 4 (leAt body 8 4)) rest 4
        r.subs.length 12 (by simp [enc_length]) (by omega)
      simpa [b, List.append_assoc] using this
  unfold regionIoFds
  rw [if_neg (by omega), if_neg (by omega), hr]
  dsimp only
  rw [if_neg hfl, if_neg (by simp only [MAX_XFER]; omega), if_neg (by decide), hmin, hmod, if_pos (Nat.le_refl _)]
  by_cases h0 : r.subs.length > 0
  · rw [if_pos ⟨h0, by omega⟩, if_neg (by omega), List.take_length]
    have hshadow : (r.subs.filter (fun s => s.shadowFd != none)).length ≤ r.subs.length := List.length_filter_le ..
    obtain ⟨fds, bs, e, n, _, hbs, hx, hd⟩ := subsLoop_spec
      (cap := r.subs.length + (r.subs.filter (fun s => s.shadowFd != none)).length) (by omega) r.subs [] hs
      List.nodup_nil (by have := totalAdds_le r.subs; simp only [List.length_nil]; omega)
    rw [e]
    dsimp only
    obtain ⟨g1, g2, g3, g4⟩ := hhdr bs
    refine ⟨_, fds, rfl, ?_, g1, g2, g3, g4, n, ?_, ?_⟩
    · simp only [List.length_append, enc_length, hbs]
    · intro x hm
      rcases hx x hm with h | h
      · simp at h
      · exact h
    · intro i hii
      have := hd (enc 4 (16 + 48 * r.subs.length) ++ enc 4 0 ++ enc 4 (leAt body 8 4) ++ enc 4 r.subs.length) i hii
      have hl16 : (enc 4 (16 + 48 * r.subs.length) ++ enc 4 0 ++ enc 4 (leAt body 8 4) ++ enc 4 r.subs.length).length =
        16 := by simp [enc_length]
      rw [hl16] at this
      exact this
  · have hz : r.subs = [] := List.length_eq_zero_iff.1 (by omega)
    rw [if_neg (fun h => h0 h.1)]
    obtain ⟨g1, g2, g3, g4⟩ := hhdr (List.replicate (r.subs.length * 48) 0#8)
    refine ⟨_, [], rfl, ?_, g1, g2, g3, g4, List.nodup_nil, by simp, ?_⟩
    · simp only [List.length_append, enc_length, List.length_replicate]; omega
    · intro i hii; omega

/-- Without room for all of them the reply says how much is needed and carries neither sub-regions nor descriptors. -/
theorem C35_no_room {tbl : List Reg} {body : List Byte} {r : Reg} (hl : 16 ≤ body.length) (hf : leAt body 4 4 = 0)
    (hc : leAt body 12 4 = 0) (hr : tbl[leAt body 8 4]? = some r) (hfl : r.flags &&& FLAG_MASK ≠ 0)
    (ha : 16 ≤ leAt body 0 4) (hfit : leAt body 0 4 < 16 + 48 * r.subs.length) (hmax : leAt body 0 4 ≤ 1048576)
    (hsm : 16 + 48 * r.subs.length < U32) :
    regionIoFds true tbl body = .ok (Reply.mk (enc 4 (16 + 48 * r.subs.length) ++ enc 4 0 ++ enc 4 (leAt body 8 4) ++
      enc 4 r.subs.length) []) := by
  have hmod : (16 + r.subs.length * 48) % U32 = 16 + 48 * r.subs.length := by
    rw [Nat.mod_eq_of_lt (by omega)]; omega
  have hlt : ¬ min ((leAt body 0 4 - 16) / 48) r.subs.length ≥ r.subs.length := by
    rw [Nat.not_le]
    have : (leAt body 0 4 - 16) / 48 < r.subs.length := by omega
    omega
  unfold regionIoFds
  rw [if_neg (by omega), if_neg (by omega), hr]
  dsimp only
  rw [if_neg hfl, if_neg (by simp only [MAX_XFER]; omega), if_neg (by decide), hmod, if_neg hlt,
    if_neg (by omega)]
  simp

/-- Malformed requests are refused. -/
theorem C35_refused (alloc : Bool) (tbl : List Reg) (body : List Byte)
    (h : body.length < 16 ∨ leAt body 4 4 ≠ 0 ∨ leAt body 12 4 ≠ 0 ∨ tbl.length ≤ leAt body 8 4 ∨
      leAt body 0 4 < 16 ∨ leAt body 0 4 > 1048576 ∨ ∃ r, tbl[leAt body 8 4]? = some r ∧ r.flags &&& 63 = 0) :
    regionIoFds alloc tbl body = .err EINVAL := by
  unfold regionIoFds
  by_cases h1 : body.length < 16
  · rw [if_pos h1]
  rw [if_neg h1]
  by_cases h2 : leAt body 4 4 ≠ 0 ∨ leAt body 12 4 ≠ 0
  · rw [if_pos h2]
  rw [if_neg h2]
  cases hr : tbl[leAt body 8 4]? with
  | none => rfl
  | some r =>
    dsimp only
    have hlt : leAt body 8 4 < tbl.length := (List.getElem?_eq_some_iff.1 hr).1
    by_cases h3 : r.flags &&& FLAG_MASK = 0
    · rw [if_pos h3]
    · rw [if_neg h3, if_pos]
      simp only [MAX_XFER]
      rw [not_or, not_not, not_not] at h2
      rcases h with h | h | h | h | h | h | ⟨r', h4, h5⟩
      · omega
      · exact absurd h2.1 h
      · exact absurd h2.2 h
      · omega
      · exact .inl h
      · exact .inr h
      · rw [hr] at h4
        injection h4 with h4
        subst h4
        exact absurd h5 h3

example : ∀ s ∈ tbl0[0].subs, SubOk s := by
  intro s hs
  simp only [tbl0, List.getElem_cons_zero, List.mem_cons, List.not_mem_nil, or_false] at hs
  rcases hs with rfl | rfl | rfl | rfl <;> exact ⟨by decide, by decide, by decide, by decide, by decide⟩
example : (regionIoFds true tbl0 (enc 4 208 ++ enc 4 0 ++ enc 4 0 ++ enc 4 0)) =
    .ok ⟨enc 4 208 ++ enc 4 0 ++ enc 4 0 ++ enc 4 4 ++
      (enc 8 0 ++ enc 8 4 ++ enc 4 0 ++ enc 4 0 ++ enc 4 0 ++ enc 4 0 ++ enc 8 0 ++ enc 8 0) ++
      (enc 8 4 ++ enc 8 4 ++ enc 4 1 ++ enc 4 0 ++ enc 4 0 ++ enc 4 0 ++ enc 8 0 ++ enc 8 7) ++
      (enc 8 8 ++ enc 8 4 ++ enc 4 0 ++ enc 4 2 ++ enc 4 0 ++ enc 4 1 ++ enc 8 3 ++ enc 8 0) ++
      (enc 8 12 ++ enc 8 4 ++ enc 4 0xffffffff ++ enc 4 0 ++ enc 4 0 ++ enc 4 0 ++ enc 8 0 ++ enc 8 0),
      [some 8, some 9]⟩ := by decide +kernel

/-- Registering: what is registered lies in the region and is listed first; everything else stays. -/
theorem C35_register (shadow : Bool) {tbl : List Reg} {idx : Nat} {s : Sub} {r : Reg} (hr : tbl[idx]? = some r)
    (hi : idx < 9) (hw : s.gpaOffset + s.size < U64) :
    (createIoeventfd shadow true tbl idx s = (tbl.set idx { r with subs := s :: r.subs }, .ok ()) ↔
      s.gpaOffset + s.size ≤ r.size ∧ (s.shadowFd = none ∨ shadow = true)) ∧
    (¬ (s.gpaOffset + s.size ≤ r.size ∧ (s.shadowFd = none ∨ shadow = true)) →
      createIoeventfd shadow true tbl idx s = (tbl, .err EINVAL)) := by
  have hadd : add64 s.gpaOffset s.size = s.gpaOffset + s.size := Nat.mod_eq_of_lt hw
  unfold createIoeventfd
  rw [hadd, hr]
  dsimp only
  by_cases h1 : shadow = false ∧ s.shadowFd ≠ none
  · rw [if_pos h1]
    refine ⟨⟨fun h => ?_, ?_⟩, fun _ => rfl⟩
    · injection h with _ h; cases h
    · rintro ⟨_, h | h⟩
      · exact absurd h h1.2
      · rw [h1.1] at h; cases h
  · rw [if_neg h1, if_neg (by simp only [NUM_REGIONS]; omega)]
    have h1' : s.shadowFd = none ∨ shadow = true := by
      by_cases h : s.shadowFd = none
      · exact .inl h
      · right
        cases shadow with
        | true => rfl
        | false => exact absurd ⟨rfl, h⟩ h1
    by_cases h2 : s.gpaOffset + s.size > r.size
    · rw [if_pos h2]
      refine ⟨⟨fun h => ?_, fun h => ?_⟩, fun _ => rfl⟩
      · injection h with _ h; cases h
      · omega
    · rw [if_neg h2, if_neg (by decide)]
      exact ⟨⟨fun _ => ⟨by omega, h1'⟩, fun _ => rfl⟩, fun h => absurd ⟨by omega, h1'⟩ h⟩

/-- With an offset near `2^64` the sum wraps: a sub-region far outside the region is registered. -/
theorem C35_wrap : ∃ (tbl : List Reg) (s : Sub) (r : Reg), tbl[0]? = some r ∧ s.gpaOffset > r.size ∧
    (createIoeventfd false true tbl 0 s).2 = .ok () :=
  ⟨tbl0, ⟨0xfffffffffffffffc, 8, some 8, 0, 0, none, 0⟩, tbl0[0], by decide, by decide, by decide⟩

/-! ## C36: set-up -/

/-- The conditions on the arguments of a set-up. -/
structure SetupOk (a : Setup) : Prop where
  mask : a.flags ≤ 63
  rw : a.flags.testBit 0 = true ∨ a.flags.testBit 1 = true
  cb : a.flags.testBit 3 = true → a.hasCb = true
  fd : a.areas ≠ [] → a.fd ≠ none
  idx : 0 ≤ a.idx ∧ a.idx < 9
  cfg : a.idx = 7 → a.flags.testBit 0 = true ∧ a.flags.testBit 1 = true ∧ a.flags.testBit 2 = false
  areas : ∀ p ∈ a.areas, p.1 + p.2 ≤ a.size

theorem areasFit_iff (size : Nat) (as : List (Nat × Nat)) (hw : ∀ p ∈ as, p.1 + p.2 < U64) :
    areasFit size as = true ↔ ∀ p ∈ as, p.1 + p.2 ≤ size := by
  induction as with
  | nil => simp [areasFit]
  | cons p as ih =>
    obtain ⟨b, l⟩ := p
    have hadd : add64 b l = b + l := Nat.mod_eq_of_lt (hw (b, l) (List.mem_cons_self ..))
    have ih := ih (fun q hq => hw q (List.mem_cons_of_mem _ hq))
    simp only [areasFit, hadd]
    by_cases h : b + l > size
    · rw [if_pos h]
      refine ⟨fun h => (by cases h), fun hall => ?_⟩
      have := hall (b, l) (List.mem_cons_self ..)
      dsimp only at this
      omega
    · rw [if_neg h, ih]
      refine ⟨fun hall q hq => ?_, fun hall q hq => hall q (List.mem_cons_of_mem _ hq)⟩
      rcases List.mem_cons.1 hq with rfl | hq
      · exact Nat.not_lt.1 h
      · exact hall q hq

theorem flag_facts : ∀ f : Nat, f ≤ 63 →
    ((f &&& FLAG_RW = 0 ↔ ¬ (f.testBit 0 = true ∨ f.testBit 1 = true)) ∧
    (f &&& FLAG_ALWAYS_CB ≠ 0 ↔ f.testBit 3 = true) ∧
    ((f &&& FLAG_RW ≠ FLAG_RW ∨ f &&& FLAG_MEM ≠ 0) ↔
      ¬ (f.testBit 0 = true ∧ f.testBit 1 = true ∧ f.testBit 2 = false))) := by
  intro f hf
  have : ∀ f : Fin 64, ((f.val &&& FLAG_RW = 0 ↔ ¬ (f.val.testBit 0 = true ∨ f.val.testBit 1 = true)) ∧
    (f.val &&& FLAG_ALWAYS_CB ≠ 0 ↔ f.val.testBit 3 = true) ∧
    ((f.val &&& FLAG_RW ≠ FLAG_RW ∨ f.val &&& FLAG_MEM ≠ 0) ↔
      ¬ (f.val.testBit 0 = true ∧ f.val.testBit 1 = true ∧ f.val.testBit 2 = false))) := by decide +kernel
  exact this ⟨f, by omega⟩

theorem mask_iff (f : Nat) : f = f &&& FLAG_MASK ↔ f ≤ 63 := by
  have : f &&& FLAG_MASK = f % 64 := Nat.and_two_pow_sub_one_eq_mod f 6
  rw [this]
  omega

/-- Exactly the set-ups meeting `SetupOk` are accepted (areas whose end does not wrap); the others are refused
with EINVAL and leave the table as it was. -/
theorem C36_decision {tbl : List Reg} (ht : tbl.length = 9) (a : Setup) (hw : ∀ p ∈ a.areas, p.1 + p.2 < U64) :
    (SetupOk a → (setup true tbl a).2 = .ok ()) ∧ (¬ SetupOk a → ∀ alloc, setup alloc tbl a = (tbl, .err EINVAL)) := by
  have hfitiff := areasFit_iff a.size a.areas hw
  by_cases h1 : a.flags ≤ 63
  · obtain ⟨f1, f2, f3⟩ := flag_facts a.flags h1
    constructor
    · intro hok
      unfold setup
      rw [if_neg (by rw [not_or, not_not]; exact ⟨(mask_iff _).2 h1, fun h => f1.1 h hok.rw⟩),
        if_neg (by rintro ⟨h, h'⟩; have := hok.cb (f2.1 h); rw [h'] at this; cases this),
        if_neg (by rintro ⟨h, h'⟩; exact hok.fd h h'),
        if_neg (by have := hok.idx; simp only [NUM_REGIONS]; omega),
        if_neg (by rintro ⟨h, h'⟩; exact f3.1 h' (hok.cfg h)),
        if_neg (by rw [hfitiff.2 hok.areas]; decide)]
      have hlt : a.idx.toNat < tbl.length := by have := hok.idx; omega
      rw [List.getElem?_eq_getElem hlt]
      dsimp only
      generalize (if a.areas = [] ∧ a.fd ≠ none then [(0, a.size)] else a.areas) = as
      by_cases has : as = []
      · rw [if_pos has]
      · rw [if_neg has, if_pos rfl]
    · intro hno alloc
      unfold setup
      by_cases c1 : a.flags ≠ a.flags &&& FLAG_MASK ∨ a.flags &&& FLAG_RW = 0
      · rw [if_pos c1]
      rw [if_neg c1]
      by_cases c2 : a.flags &&& FLAG_ALWAYS_CB ≠ 0 ∧ a.hasCb = false
      · rw [if_pos c2]
      rw [if_neg c2]
      by_cases c3 : a.areas ≠ [] ∧ a.fd = none
      · rw [if_pos c3]
      rw [if_neg c3]
      by_cases c4 : a.idx < 0 ∨ a.idx ≥ NUM_REGIONS
      · rw [if_pos c4]
      rw [if_neg c4]
      by_cases c5 : a.idx = CFG_IDX ∧ (a.flags &&& FLAG_RW ≠ FLAG_RW ∨ a.flags &&& FLAG_MEM ≠ 0)
      · rw [if_pos c5]
      rw [if_neg c5]
      by_cases c6 : areasFit a.size a.areas = false
      · rw [if_pos c6]
      · exfalso
        apply hno
        rw [not_or] at c1
        refine ⟨h1, ?_, ?_, ?_, ?_, ?_, ?_⟩
        · by_contra h; exact c1.2 (f1.2 h)
        · intro h
          cases hcb : a.hasCb with
          | true => rfl
          | false => exact absurd ⟨f2.2 h, hcb⟩ c2
        · intro h h'; exact c3 ⟨h, h'⟩
        · simp only [NUM_REGIONS] at c4; omega
        · intro h
          by_contra hc
          exact c5 ⟨h, f3.2 hc⟩
        · exact hfitiff.1 (by simpa using c6)
  · have hm : a.flags ≠ a.flags &&& FLAG_MASK := fun h => h1 ((mask_iff _).1 h)
    refine ⟨fun h => absurd h.mask h1, fun _ alloc => ?_⟩
    unfold setup
    rw [if_pos (.inl hm)]

/-- What an accepted set-up stores: the parameters as given, the areas as given or one area for the whole region;
all other regions are untouched. Sizes below `2^32`. A region set up before without areas of its own (`fd = none`)
keeps those of the earlier call. -/
theorem C36_stored {tbl : List Reg} (ht : tbl.length = 9) (a : Setup) (hw : ∀ p ∈ a.areas, p.1 + p.2 < U64)
    (hsz : a.size < U32) (hok : SetupOk a) :
    ∃ r old, tbl[a.idx.toNat]? = some old ∧ (setup true tbl a).1 = tbl.set a.idx.toNat r ∧
      r.flags = a.flags ∧ r.size = a.size ∧ r.hasCb = a.hasCb ∧ r.fd = a.fd ∧ r.offset = a.offset ∧ r.subs = old.subs ∧
      (a.areas ≠ [] → r.areas = a.areas) ∧ (a.areas = [] → a.fd ≠ none → r.areas = [(0, a.size)]) ∧
      (a.fd = none → r.areas = old.areas) ∧
      (a.fd ≠ none → ∀ p ∈ r.areas, p.1 + p.2 ≤ r.size) := by
  obtain ⟨f1, f2, f3⟩ := flag_facts a.flags hok.mask
  have hlt : a.idx.toNat < tbl.length := by have := hok.idx; omega
  unfold setup
  rw [if_neg (by rw [not_or, not_not]; exact ⟨(mask_iff _).2 hok.mask, fun h => f1.1 h hok.rw⟩),
    if_neg (by rintro ⟨h, h'⟩; have := hok.cb (f2.1 h); rw [h'] at this; cases this),
    if_neg (by rintro ⟨h, h'⟩; exact hok.fd h h'),
    if_neg (by have := hok.idx; simp only [NUM_REGIONS]; omega),
    if_neg (by rintro ⟨h, h'⟩; exact f3.1 h' (hok.cfg h)),
    if_neg (by rw [(areasFit_iff a.size a.areas hw).2 hok.areas]; decide),
    List.getElem?_eq_getElem hlt]
  dsimp only
  have hmod : a.size % U32 = a.size := Nat.mod_eq_of_lt hsz
  by_cases hfd : a.fd = none
  · have hne : a.areas = [] := by
      by_contra h; exact hok.fd h hfd
    rw [if_pos (by rw [if_neg (fun h => h.2 hfd)]; exact hne)]
    refine ⟨_, _, rfl, rfl, rfl, hmod, rfl, rfl, rfl, rfl, fun h => absurd hne h, fun _ h => absurd hfd h, fun _ => rfl,
      fun h => absurd hfd h⟩
  · by_cases hne : a.areas = []
    · rw [show (if a.areas = [] ∧ a.fd ≠ none then [(0, a.size)] else a.areas) = [(0, a.size)] from if_pos ⟨hne, hfd⟩,
        if_neg (by simp), if_pos rfl]
      refine ⟨_, _, rfl, rfl, rfl, hmod, rfl, rfl, rfl, rfl, fun h => absurd hne h, fun _ _ => rfl, fun h => absurd h hfd, ?_⟩
      intro _ p hp
      simp only [List.mem_singleton] at hp
      subst hp
      dsimp only
      omega
    · rw [show (if a.areas = [] ∧ a.fd ≠ none then [(0, a.size)] else a.areas) = a.areas from if_neg (fun h => hne h.1),
        if_neg hne, if_pos rfl]
      refine ⟨_, _, rfl, rfl, rfl, hmod, rfl, rfl, rfl, rfl, fun _ => rfl, fun h => absurd h hne, fun h => absurd h hfd, ?_⟩
      intro _ p hp
      dsimp only at hp ⊢
      rw [hmod]
      exact hok.areas p hp

/-- A table after any sequence of set-ups and registrations has nine entries with sizes below `2^32`. -/
inductive Reach : List Reg → Prop where
  | blank : Reach blankTable
  | setup {tbl : List Reg} (alloc : Bool) (a : Setup) : Reach tbl → Reach (setup alloc tbl a).1
  | ioeventfd {tbl : List Reg} (shadow alloc : Bool) (idx : Nat) (s : Sub) : Reach tbl →
      Reach (createIoeventfd shadow alloc tbl idx s).1

theorem mem_set_imp {l : List Reg} {i : Nat} {x : Reg} {P : Reg → Prop} (h : ∀ r ∈ l, P r) (hx : P x) : ∀ r ∈ l.set i x, P r := by
  intro r hr
  rcases List.mem_or_eq_of_mem_set hr with h1 | h1
  · exact h r h1
  · rw [h1]; exact hx

theorem C36_table {tbl : List Reg} (h : Reach tbl) : tbl.length = 9 ∧ ∀ r ∈ tbl, r.size < U32 := by
  induction h with
  | blank => exact ⟨by decide, by decide⟩
  | @setup tbl alloc a _ ih =>
    have hm : a.size % U32 < U32 := Nat.mod_lt _ (by decide)
    unfold setup
    split
    · exact ih
    · split
      · exact ih
      · split
        · exact ih
        · split
          · exact ih
          · split
            · exact ih
            · split
              · exact ih
              · split
                · exact ih
                · dsimp only
                  generalize (if a.areas = [] ∧ a.fd ≠ none then [(0, a.size)] else a.areas) = as
                  split
                  · exact ⟨by simp [ih.1], mem_set_imp ih.2 hm⟩
                  · split
                    · exact ⟨by simp [ih.1], mem_set_imp ih.2 hm⟩
                    · exact ⟨by simp [ih.1], mem_set_imp ih.2 (by decide)⟩
  | @ioeventfd tbl shadow alloc idx s _ ih =>
    unfold createIoeventfd
    split
    · exact ih
    · split
      · exact ih
      · split
        · exact ih
        · rename_i r hr
          have := ih.2 r (List.mem_of_getElem? hr)
          split
          · exact ih
          · split
            · exact ih
            · exact ⟨by simp [ih.1], mem_set_imp ih.2 this⟩

/-- An area whose end wraps past `2^64` is accepted although it starts far outside the region. -/
theorem C36_wrap : ∃ a : Setup, (setup true blankTable a).2 = .ok () ∧ ∃ p ∈ a.areas, p.1 > a.size :=
  ⟨{ idx := 0, size := 4096, hasCb := true, flags := 3, areas := [(0xfffffffffffff000, 0x1000)], fd := some 3, offset := 0 },
    by decide, (0xfffffffffffff000, 0x1000), by decide, by decide⟩

/-- A size of `2^32 + 4096` is stored as 4096; the areas, checked against the full size, exceed it. -/
theorem C36_truncated : ∃ a : Setup, (setup true blankTable a).2 = .ok () ∧ a.size = U32 + 4096 ∧
    ((setup true blankTable a).1[0]?.map (fun r => r.size)) = some 4096 ∧
    ((setup true blankTable a).1[0]?.map (fun r => r.areas)) = some [(0, U32 + 4096)] :=
  ⟨{ idx := 0, size := U32 + 4096, hasCb := true, flags := 3, areas := [], fd := some 3, offset := 0 },
    by decide, rfl, by decide, by decide⟩

/-- Setting a region up again, smaller and without a descriptor, leaves the old areas, now outside it. -/
theorem C36_stale : ∃ a b : Setup, (setup true blankTable a).2 = .ok () ∧
    (setup true (setup true blankTable a).1 b).2 = .ok () ∧
    ((setup true (setup true blankTable a).1 b).1[0]?.map (fun r => (r.size, r.fd, r.areas))) =
      some (4096, none, [(0, 8192)]) :=
  ⟨{ idx := 0, size := 8192, hasCb := true, flags := 3, areas := [], fd := some 3, offset := 0 },
    { idx := 0, size := 4096, hasCb := true, flags := 3, areas := [], fd := none, offset := 0 },
    by decide, by decide, by decide⟩

example : SetupOk { idx := 2, size := 8192, hasCb := true, flags := 7, areas := [(0, 4096), (4096, 4096)], fd := some 3, offset := 0 } :=
  ⟨by decide, by decide, by decide, by decide, by decide, by decide, by decide⟩
example : ¬ SetupOk { idx := 7, size := 256, hasCb := true, flags := 1, areas := [], fd := none, offset := 0 } :=
  fun h => absurd (h.cfg rfl).2.1 (by decide)

/-! ## C65: what is described is what is enforced -/

/-- A client that keeps inside the size reported by region info is never refused for its bounds, and one that does
not is always refused: the reported size is the enforced one. -/
theorem C65_reported_enforced {tbl : List Reg} (ht : Reach tbl) {q : List Byte} (hl : 32 ≤ q.length)
    (ha : 32 ≤ leAt q 0 4) {r : Reg} (hr : tbl[leAt q 8 4]? = some r) (hok : RegOk r) {isWrite : Bool} {body : List Byte}
    (hb : 16 ≤ body.length) (hreg : leAt body 8 4 = leAt q 8 4) (hc : leAt body 12 4 ≤ 1048576)
    (hp : isWrite = true → body.length = 16 + leAt body 12 4) :
    ∃ reply, regionInfo true tbl q = .ok reply ∧
      (validAccess tbl false isWrite body = true ↔ leAt body 0 8 + leAt body 12 4 ≤ leAt reply.body 16 8) := by
  obtain ⟨reply, he, _, hf, _⟩ := C34_info hl ha hr hok
  refine ⟨reply, he, ?_⟩
  rw [validAccess_iff (C36_table ht).2, hf.size]
  constructor
  · rintro ⟨r', h⟩
    have h1 := h.region
    rw [hreg, hr] at h1
    injection h1 with h1
    subst h1
    exact h.bound
  · intro h
    exact ⟨r, hb, hc, hp, by rw [hreg]; exact hr, h, rfl⟩

/-- Device info: nine regions, five interrupt types, PCI and reset flags; undersized requests are refused. -/
theorem C65_device_info (body : List Byte) :
    (16 ≤ body.length ∧ 16 ≤ leAt body 0 4 → deviceInfo true 9 body = .ok (enc 4 16 ++ enc 4 3 ++ enc 4 9 ++ enc 4 5)) ∧
    (body.length < 16 ∨ leAt body 0 4 < 16 → deviceInfo true 9 body = .err EINVAL) := by
  unfold deviceInfo
  constructor
  · intro h; rw [if_neg (by omega), if_neg (by decide)]
  · intro h; rw [if_pos h]

end Verif.Region
