import Verif.Pci.Model

/-! # Memory and bit fields -/

namespace Verif.Pci
open Verif

theorem rdM_length (m : Mem) (off n : Nat) : (rdM m off n).length = n := by simp [rdM]

theorem rdM_getElem (m : Mem) (off n i : Nat) (h : i < (rdM m off n).length) : (rdM m off n)[i] = m (off + i) := by
  simp [rdM]

theorem rdM_zero (m : Mem) (off : Nat) : rdM m off 0 = [] := rfl

theorem rdM_append (m : Mem) (off a b : Nat) : rdM m off a ++ rdM m (off + a) b = rdM m off (a + b) := by
  apply List.ext_getElem
  · simp [rdM_length]
  · intro i h1 h2
    rw [rdM_getElem]
    by_cases h : i < a
    · rw [List.getElem_append_left (by rw [rdM_length]; exact h), rdM_getElem]
    · rw [List.getElem_append_right (by rw [rdM_length]; omega), rdM_getElem, rdM_length]
      congr 1
      omega

theorem rdM_congr {m m' : Mem} {off n : Nat} (h : ∀ a, off ≤ a → a < off + n → m a = m' a) : rdM m off n = rdM m' off n := by
  apply List.ext_getElem
  · simp [rdM_length]
  · intro i h1 h2
    rw [rdM_getElem, rdM_getElem]
    rw [rdM_length] at h1
    exact h _ (by omega) (by omega)

theorem wrM_out {m : Mem} {off a : Nat} {bs : List Byte} (h : a < off ∨ off + bs.length ≤ a) : wrM m off bs a = m a := by
  unfold wrM; rw [if_neg (by omega)]

theorem wrM_in {m : Mem} {off a : Nat} {bs : List Byte} (h : off ≤ a) (h' : a < off + bs.length) :
    wrM m off bs a = bs.getD (a - off) 0#8 := by
  unfold wrM; rw [if_pos ⟨h, h'⟩]

theorem leAt_rdM (m : Mem) (n : Nat) : ∀ off k, k + n ≤ 8 → ∀ N, k + n ≤ N →
    leAt (rdM m off N) k n = leAt (rdM m (off + k) n) 0 n := by
  induction n with
  | zero => intro off k _ N _; rfl
  | succ n ih =>
    intro off k h N hN
    have e1 := ih off (k + 1) (by omega) N (by omega)
    have e2 := ih (off + k) 1 (by omega) (n + 1) (by omega)
    simp only [leAt]
    rw [e1, e2]
    have h1 : (rdM m off N).getD k 0#8 = m (off + k) := by
      rw [List.getD_eq_getElem?_getD, List.getElem?_eq_getElem (by rw [rdM_length]; omega), rdM_getElem]; rfl
    have h2 : (rdM m (off + k) (n + 1)).getD 0 0#8 = m (off + k) := by
      rw [List.getD_eq_getElem?_getD, List.getElem?_eq_getElem (by rw [rdM_length]; omega), rdM_getElem]; rfl
    rw [h1, h2]
    rfl

theorem rd1 (m : Mem) (a : Nat) : leAt (rdM m a 1) 0 1 = (m a).toNat := by
  simp [leAt, rdM, List.range_succ]

theorem rd4 (m : Mem) (a : Nat) : leAt (rdM m a 4) 0 4 =
    (m a).toNat + 256 * ((m (a + 1)).toNat + 256 * ((m (a + 2)).toNat + 256 * (m (a + 3)).toNat)) := by
  simp [leAt, rdM, List.range_succ]

theorem rd2 (m : Mem) (a : Nat) : leAt (rdM m a 2) 0 2 = (m a).toNat + 256 * (m (a + 1)).toNat := by
  simp [leAt, rdM, List.range_succ]

/-- Bit `k` of byte `a` lies in the field `lo … lo+n-1` of the struct at `off`. -/
def InField (off a k : Nat) (f : Nat × Nat) : Prop := off ≤ a ∧ f.1 ≤ 8 * (a - off) + k ∧ 8 * (a - off) + k < f.1 + f.2

instance (off a k : Nat) (f : Nat × Nat) : Decidable (InField off a k f) := by unfold InField; infer_instance

theorem fieldMask_bit (lo n i k : Nat) (hk : k < 8) :
    (fieldMask lo n i).getLsbD k = decide (lo ≤ 8 * i + k ∧ 8 * i + k < lo + n) := by
  unfold fieldMask
  rw [BitVec.getLsbD_ofNat]
  simp only [hk, decide_true, Bool.true_and]
  rw [Nat.testBit_div_two_pow, Nat.testBit_mul_two_pow, Nat.testBit_two_pow_sub_one]
  by_cases h1 : lo ≤ 8 * i + k
  · have : decide (8 * i + k - lo < n) = decide (8 * i + k < lo + n) := by
      apply decide_eq_decide.2; omega
    simp only [Nat.add_comm k (8 * i), h1, decide_true, Bool.true_and, true_and]
    exact this
  · simp only [Nat.add_comm k (8 * i), h1, decide_false, Bool.false_and, false_and]

theorem setField_bit (m src : Mem) (off lo n a k : Nat) (hk : k < 8) :
    (setField m src off lo n a).getLsbD k = if InField off a k (lo, n) then (src a).getLsbD k else (m a).getLsbD k := by
  unfold setField
  by_cases h : off ≤ a
  · rw [if_pos h]
    simp only [BitVec.getLsbD_or, BitVec.getLsbD_and, BitVec.getLsbD_not, hk, decide_true, Bool.true_and, fieldMask_bit _ _ _ _ hk]
    by_cases h2 : lo ≤ 8 * (a - off) + k ∧ 8 * (a - off) + k < lo + n
    · rw [if_pos ⟨h, h2⟩]; simp [h2]
    · rw [if_neg (fun h' => h2 h'.2)]; simp [h2]
  · rw [if_neg h, if_neg (fun h' => h h'.1)]

theorem setFields_bit (src : Mem) (off a k : Nat) (hk : k < 8) : ∀ (fs : List (Nat × Nat)) (m : Mem),
    (setFields m src off fs a).getLsbD k =
      if ∃ f ∈ fs, InField off a k f then (src a).getLsbD k else (m a).getLsbD k := by
  intro fs
  induction fs with
  | nil => intro m; simp [setFields]
  | cons f fs ih =>
    intro m
    obtain ⟨lo, n⟩ := f
    simp only [setFields]
    rw [ih, setField_bit _ _ _ _ _ _ _ hk]
    by_cases h1 : ∃ f ∈ fs, InField off a k f
    · obtain ⟨f, hf, h⟩ := h1
      rw [if_pos ⟨f, hf, h⟩, if_pos ⟨f, List.mem_cons_of_mem _ hf, h⟩]
    · rw [if_neg h1]
      by_cases h2 : InField off a k (lo, n)
      · rw [if_pos h2, if_pos ⟨_, List.mem_cons_self .., h2⟩]
      · rw [if_neg h2, if_neg]
        rintro ⟨f, hf, h⟩
        rcases List.mem_cons.1 hf with rfl | hf
        · exact h2 h
        · exact h1 ⟨f, hf, h⟩

theorem byte_ext {x y : Byte} (h : ∀ k, k < 8 → x.getLsbD k = y.getLsbD k) : x = y := by
  apply BitVec.eq_of_getLsbD_eq
  intro i hi
  exact h i hi

/-- Bytes without a bit of a field keep their value. -/
theorem setFields_out {src m : Mem} {off a : Nat} {fs : List (Nat × Nat)}
    (h : ∀ f ∈ fs, a < off + f.1 / 8 ∨ off + (f.1 + f.2 + 7) / 8 ≤ a) : setFields m src off fs a = m a := by
  apply byte_ext
  intro k hk
  rw [setFields_bit _ _ _ _ hk, if_neg]
  rintro ⟨f, hf, h1, h2, h3⟩
  have := h f hf
  omega

theorem setFields_same {src m : Mem} {off a : Nat} {fs : List (Nat × Nat)} (h : src a = m a) : setFields m src off fs a = m a := by
  apply byte_ext
  intro k hk
  rw [setFields_bit _ _ _ _ hk, h]
  split <;> rfl

end Verif.Pci
