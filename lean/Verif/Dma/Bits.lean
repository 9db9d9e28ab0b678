import Verif.Dma.Refine

/-! # Bitmaps as sets of pages -/

namespace Verif.Dma
open Verif

/-- Bit `p` of a bitmap (page `p`): bit `p % 8` of byte `p / 8`, absent bytes count as 0. -/
def bit (bm : List Byte) (p : Nat) : Bool := (bm.getD (p / 8) 0#8).getLsbD (p % 8)

theorem bit_mk (bm : List Byte) (i j : Nat) (hj : j < 8) :
    bit bm (8 * i + j) = (bm.getD i 0#8).getLsbD j := by
  unfold bit
  rw [show (8 * i + j) / 8 = i by omega, show (8 * i + j) % 8 = j by omega]

theorem bit_ge {bm : List Byte} {p : Nat} (h : 8 * bm.length ≤ p) : bit bm p = false := by
  unfold bit
  rw [List.getD_eq_getElem?_getD, List.getElem?_eq_none (by omega)]
  simp

theorem bit_set {bm : List Byte} {i : Nat} {b : Byte} (hi : i < bm.length) (p : Nat) :
    bit (bm.set i b) p = if p / 8 = i then b.getLsbD (p % 8) else bit bm p := by
  unfold bit
  rw [List.getD_eq_getElem?_getD, List.getD_eq_getElem?_getD, List.getElem?_set]
  by_cases h : p / 8 = i
  · subst h; simp [hi]
  · have h' : ¬ i = p / 8 := fun e => h e.symm
    simp [h, h']

theorem bit_replicate_zero (n p : Nat) : bit (List.replicate n 0#8) p = false := by
  unfold bit
  rw [List.getD_eq_getElem?_getD, List.getElem?_replicate]
  split <;> simp

theorem bit_getElem? {bm : List Byte} {i : Nat} {b : Byte} (h : bm[i]? = some b) {p : Nat} (hp : p / 8 = i) :
    bit bm p = b.getLsbD (p % 8) := by
  unfold bit
  rw [List.getD_eq_getElem?_getD, hp, h]; rfl

/-- Two bitmaps of the same length with the same bits are equal. -/
theorem bits_ext {a b : List Byte} (hl : a.length = b.length) (h : ∀ p, p < 8 * a.length → bit a p = bit b p) :
    a = b := by
  apply List.ext_getElem hl
  intro i h1 h2
  apply BitVec.eq_of_getLsbD_eq
  intro j hj
  have := h (8 * i + j) (by omega)
  rw [bit_mk a i j hj, bit_mk b i j hj] at this
  simpa [List.getD_eq_getElem?_getD, h1, h2] using this

/-! ## Masks -/

theorem lowMask (s j : Nat) (hs : s < 8) (hj : j < 8) :
    ((1#8 <<< s) - 1#8).getLsbD j = decide (j < s) := by
  have : ∀ s < 8, ∀ j < 8, ((1#8 <<< s) - 1#8).getLsbD j = decide (j < s) := by decide
  exact this s hs j hj

theorem markMask_bit (pgs pge i j : Nat) (hj : j < 8) (h1 : markIndex pgs ≤ i) (h2 : i < markEnd pge) :
    (markMask pgs pge i).getLsbD j = decide (pgs ≤ 8 * i + j ∧ 8 * i + j < pge) := by
  have hff : (0xff#8).getLsbD j = true := by
    have : ∀ j < 8, (0xff#8).getLsbD j = true := by decide
    exact this j hj
  have hlo := lowMask (pgs % 8) j (by omega) hj
  have hhi := lowMask (pge % 8) j (by omega) hj
  unfold markMask
  unfold markIndex markEnd at *
  simp only
  by_cases c1 : i = pgs / 8 ∧ pgs % 8 ≠ 0 <;> by_cases c2 : i = (pge / 8 + if pge % 8 ≠ 0 then 1 else 0) - 1 ∧ pge % 8 ≠ 0
  · rw [if_pos c1, if_pos c2]
    simp only [BitVec.getLsbD_and, BitVec.getLsbD_not, hff, hlo, hhi, hj, decide_true, Bool.true_and,
      ← decide_not, ← Bool.decide_and]
    apply decide_eq_decide.mpr
    rw [if_pos c2.2] at c2
    omega
  · rw [if_pos c1, if_neg c2]
    simp only [BitVec.getLsbD_and, BitVec.getLsbD_not, hff, hlo, hj, decide_true, Bool.true_and,
      ← decide_not]
    apply decide_eq_decide.mpr
    split at c2 <;> split at h2 <;> omega
  · rw [if_neg c1, if_pos c2]
    simp only [BitVec.getLsbD_and, hff, hhi, Bool.true_and]
    apply decide_eq_decide.mpr
    rw [if_pos c2.2] at c2
    omega
  · rw [if_neg c1, if_neg c2, hff]
    symm
    apply decide_eq_true
    split at c2 <;> split at h2 <;> omega

/-- The marking loop. -/
theorem markLoop_spec (pgs pge : Nat) : ∀ (n i : Nat) (bm : List Byte), markIndex pgs ≤ i →
    i + n ≤ markEnd pge → i + n ≤ bm.length →
    ∃ bm', markLoop pgs pge n i bm = .ok bm' ∧ bm'.length = bm.length ∧
      ∀ p, bit bm' p = (bit bm p || decide (i ≤ p / 8 ∧ p / 8 < i + n ∧ pgs ≤ p ∧ p < pge)) := by
  intro n
  induction n with
  | zero =>
    intro i bm _ _ _
    refine ⟨bm, rfl, rfl, ?_⟩
    intro p
    have : ¬ (i ≤ p / 8 ∧ p / 8 < i + 0 ∧ pgs ≤ p ∧ p < pge) := by omega
    simp only [this, decide_false, Bool.or_false]
  | succ n ih =>
    intro i bm h1 h2 h3
    have hi : i < bm.length := by omega
    simp only [markLoop, List.getElem?_eq_getElem hi]
    obtain ⟨bm', e1, e2, e3⟩ := ih (i + 1) (bm.set i (bm[i] ||| markMask pgs pge i)) (by omega) (by omega)
      (by simp; omega)
    refine ⟨bm', e1, by rw [e2]; simp, ?_⟩
    intro p
    rw [e3 p, bit_set hi]
    by_cases hp : p / 8 = i
    · simp only [hp, if_true]
      rw [BitVec.getLsbD_or, markMask_bit pgs pge i (p % 8) (by omega) h1 (by omega)]
      rw [bit_getElem? (List.getElem?_eq_getElem hi) hp]
      have e : 8 * i + p % 8 = p := by omega
      rw [e]
      have n1 : ¬ (i + 1 ≤ i) := by omega
      have n2 : i < i + (n + 1) := by omega
      simp only [n1, false_and, decide_false, Bool.or_false, n2, true_and, Nat.le_refl]
    · simp only [hp, if_false]
      congr 1
      apply decide_eq_decide.mpr
      omega

/-- With too short a bitmap the loop leaves it. -/
theorem markLoop_oob (pgs pge : Nat) : ∀ (n i : Nat) (bm : List Byte), bm.length < i + n → 0 < n →
    markLoop pgs pge n i bm = .fault .oob := by
  intro n
  induction n with
  | zero => intro i bm _ h; omega
  | succ n ih =>
    intro i bm h _
    simp only [markLoop]
    split
    · rfl
    · rename_i b hb
      have hi := (List.getElem?_eq_some_iff.mp hb).1
      by_cases hn : n = 0
      · omega
      · exact ih _ _ (by simp; omega) (by omega)

/-! ## Pages -/

theorem pgEnd_pow2 {off len k : Nat} (hk : k ≤ 64) (h : off + len + 2 ^ k - 1 < U64) :
    pgEnd off len (2 ^ k) = (off + len + 2 ^ k - 1) / 2 ^ k := by
  have hp : 0 < 2 ^ k := Nat.two_pow_pos k
  unfold pgEnd add64
  rw [Nat.mod_eq_of_lt (by omega), roundUp_pow2 h hk, Nat.mul_div_cancel _ hp]

/-- Page `p` contains a byte of `[off, off+len)`. -/
def Touches (pgsize off len p : Nat) : Prop := ∃ b, off ≤ b ∧ b < off + len ∧ b / pgsize = p

theorem touches_iff {pgsize off len p : Nat} (hp : 0 < pgsize) (hl : 0 < len) :
    Touches pgsize off len p ↔ off / pgsize ≤ p ∧ p < (off + len + pgsize - 1) / pgsize := by
  have e1 : p < (off + len + pgsize - 1) / pgsize ↔ p * pgsize < off + len := by
    rw [show p < (off + len + pgsize - 1) / pgsize ↔ p + 1 ≤ (off + len + pgsize - 1) / pgsize from Iff.rfl,
      Nat.le_div_iff_mul_le hp, Nat.succ_mul]
    omega
  have e2 : off / pgsize ≤ p ↔ off < (p + 1) * pgsize := by
    rw [show off / pgsize ≤ p ↔ off / pgsize < p + 1 by omega, Nat.div_lt_iff_lt_mul hp]
  rw [e1, e2, Nat.succ_mul]
  constructor
  · rintro ⟨b, h1, h2, rfl⟩
    have h3 := Nat.div_add_mod b pgsize
    have h4 := Nat.mod_lt b hp
    rw [Nat.mul_comm] at h3
    omega
  · rintro ⟨h1, h2⟩
    refine ⟨max off (p * pgsize), by omega, by omega, ?_⟩
    rw [Nat.div_eq_iff hp]
    omega

/-! ## Bitmap sizes -/

theorem ceil_eq {a p : Nat} (hp : 0 < p) : a / p + (if a % p ≠ 0 then 1 else 0) = (a + p - 1) / p := by
  have h := Nat.div_add_mod a p
  have hm := Nat.mod_lt a hp
  by_cases h0 : a % p = 0
  · have : a + p - 1 = p * (a / p) + (p - 1) := by omega
    rw [this, Nat.mul_add_div hp, Nat.div_eq_of_lt (a := p - 1) (b := p) (by omega)]
    simp [h0]
  · have : a + p - 1 = p * (a / p + 1) + (a % p - 1) := by rw [Nat.mul_add]; omega
    rw [this, Nat.mul_add_div hp, Nat.div_eq_of_lt (a := a % p - 1) (b := p) (by omega)]
    simp [h0]

theorem roundUp_64 {n : Nat} (h : n + 63 < U64) : roundUp n 64 = (n + 63) / 64 * 64 := by
  have := roundUp_pow2 (x := n) (k := 6) (by simpa using h) (by decide)
  simpa using this

/-- `get_bitmap_size` in closed form. -/
theorem getBitmapSize_eq {len pg : Nat} (h0 : pg ≠ 0) (h1 : pg ≤ len)
    (hnw : (len + pg - 1) / pg + 63 < U64) :
    getBitmapSize len pg = .ok ((((len + pg - 1) / pg) + 63) / 64 * 8) := by
  unfold getBitmapSize
  have : ¬ len < pg := by omega
  simp only [h0, this, if_false]
  rw [ceil_eq (by omega), roundUp_64 hnw]
  congr 1
  omega

end Verif.Dma
