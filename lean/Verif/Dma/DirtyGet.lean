import Verif.Dma.LogInv

/-! # The three ways of reading a bitmap -/

namespace Verif.Dma
open Verif

theorem exchange_eq (b : Byte) : exchange b = (b, 0#8) := by
  unfold exchange
  split
  · rename_i h; rw [h]
  · rfl

theorem bit_set_zero {bm : List Byte} {i : Nat} (hi : i < bm.length) (p : Nat) :
    bit (bm.set i 0#8) p = (bit bm p && !decide (p / 8 = i)) := by
  rw [bit_set hi]
  by_cases h : p / 8 = i <;> simp [h]

theorem getSame_spec : ∀ (n i : Nat) (srv out : List Byte), i + n ≤ srv.length → i + n ≤ out.length →
    ∃ srv' out', getSame n i srv out = .ok (srv', out') ∧
      (∀ p, bit out' p = if i ≤ p / 8 ∧ p / 8 < i + n then bit srv p else bit out p) ∧
      (∀ p, bit srv' p = (bit srv p && !decide (i ≤ p / 8 ∧ p / 8 < i + n))) := by
  intro n
  induction n with
  | zero =>
    intro i srv out h1 h2
    refine ⟨srv, out, rfl, fun p => ?_, fun p => ?_⟩
    · have : ¬ (i ≤ p / 8 ∧ p / 8 < i + 0) := by omega
      simp only [this, if_false]
    · have : ¬ (i ≤ p / 8 ∧ p / 8 < i + 0) := by omega
      simp only [this, decide_false, Bool.not_false, Bool.and_true]
  | succ n ih =>
    intro i srv out h1 h2
    have hs : i < srv.length := by omega
    have ho : i < out.length := by omega
    simp only [getSame, List.getElem?_eq_getElem hs, List.getElem?_eq_getElem ho, exchange_eq]
    obtain ⟨srv', out', e1, e2, e3⟩ := ih (i + 1) (srv.set i 0#8) (out.set i srv[i]) (by simp; omega)
      (by simp; omega)
    refine ⟨srv', out', e1, fun p => ?_, fun p => ?_⟩
    · rw [e2 p, bit_set ho, bit_set_zero hs]
      by_cases hp : p / 8 = i
      · have c1 : ¬ (i + 1 ≤ p / 8 ∧ p / 8 < i + 1 + n) := by omega
        have c2 : i ≤ p / 8 ∧ p / 8 < i + (n + 1) := by omega
        rw [if_neg c1, if_pos c2, if_pos hp]
        rw [bit_getElem? (List.getElem?_eq_getElem hs) hp]
      · by_cases c : i + 1 ≤ p / 8 ∧ p / 8 < i + 1 + n
        · have c2 : i ≤ p / 8 ∧ p / 8 < i + (n + 1) := by omega
          simp [c, c2, hp]
        · have c2 : ¬ (i ≤ p / 8 ∧ p / 8 < i + (n + 1)) := by omega
          simp only [c, c2, if_false, hp]
    · rw [e3 p, bit_set_zero hs, Bool.and_assoc, ← Bool.not_or, ← Bool.decide_or]
      congr 2
      apply decide_eq_decide.mpr
      omega

/-! ## Single bits -/

theorem one_bit (t : Nat) : (1#8).getLsbD t = decide (t = 0) := by
  cases t with
  | zero => decide
  | succ t =>
    by_cases h : t + 1 < 8
    · have : ∀ t < 7, (1#8).getLsbD (t + 1) = false := by decide
      rw [this t (by omega)]; simp
    · rw [BitVec.getLsbD_of_ge _ _ (by omega)]; simp

theorem serverBit_bit (v : Byte) (j t : Nat) : (serverBit v j).getLsbD t = (decide (t = 0) && v.getLsbD j) := by
  unfold serverBit
  rw [BitVec.getLsbD_and, BitVec.getLsbD_ushiftRight, one_bit]
  by_cases h : t = 0
  · subst h; simp
  · simp [h]

theorem orBit_spec {out : List Byte} {idx : Nat} (h : idx < 8 * out.length) (v : Byte) (j : Nat) :
    ∃ out', orBit out idx (serverBit v j) = .ok out' ∧ out'.length = out.length ∧
      ∀ p, bit out' p = (bit out p || (decide (p = idx) && v.getLsbD j)) := by
  have hi : idx / 8 < out.length := by omega
  refine ⟨out.set (idx / 8) (out[idx / 8] ||| (serverBit v j <<< (idx % 8))), ?_, by simp, ?_⟩
  · unfold orBit; rw [List.getElem?_eq_getElem hi]
  · intro p
    rw [bit_set hi]
    by_cases hp : p / 8 = idx / 8
    · simp only [hp, if_true]
      rw [BitVec.getLsbD_or, BitVec.getLsbD_shiftLeft, serverBit_bit,
        bit_getElem? (List.getElem?_eq_getElem hi) hp]
      congr 1
      by_cases e : p = idx
      · subst e; simp; omega
      · by_cases l : p % 8 < idx % 8
        · simp [l, e]
        · have : ¬ (p % 8 - idx % 8 = 0) := by omega
          simp [this, e]
    · have e : ¬ p = idx := fun e => hp (by rw [e])
      simp [hp, e]

/-! ## Expanding to smaller pages -/

theorem extendBits_spec (e : Nat) (v : Byte) (j : Nat) : ∀ (fuel cb : Nat) (out : List Byte), cb ≤ e → e < 256 →
    e - cb ≤ fuel → e ≤ 8 * out.length →
    ∃ out', extendBits e (serverBit v j) fuel cb out = .ok (e, out') ∧ out'.length = out.length ∧
      ∀ p, bit out' p = (bit out p || (decide (cb ≤ p ∧ p < e) && v.getLsbD j)) := by
  intro fuel
  induction fuel with
  | zero =>
    intro cb out h1 h2 h3 h4
    have : cb = e := by omega
    subst this
    refine ⟨out, ?_, rfl, fun p => ?_⟩
    · unfold extendBits; simp
    · have : ¬ (cb ≤ p ∧ p < cb) := by omega
      simp only [this, decide_false, Bool.false_and, Bool.or_false]
  | succ fuel ih =>
    intro cb out h1 h2 h3 h4
    by_cases hc : cb < e
    · obtain ⟨o1, a1, a2, a3⟩ := orBit_spec (out := out) (idx := cb) (by omega) v j
      obtain ⟨o2, b1, b2, b3⟩ := ih (cb + 1) o1 (by omega) h2 (by omega) (by omega)
      refine ⟨o2, ?_, by rw [b2, a2], fun p => ?_⟩
      · unfold extendBits
        simp only [hc, if_true, a1]
        rw [Nat.mod_eq_of_lt (by omega)]
        exact b1
      · rw [b3, a3, Bool.or_assoc, ← Bool.and_or_distrib_right, ← Bool.decide_or]
        congr 2
        apply decide_eq_decide.mpr
        omega
    · have : cb = e := by omega
      subst this
      refine ⟨out, ?_, rfl, fun p => ?_⟩
      · unfold extendBits; simp
      · have : ¬ (cb ≤ p ∧ p < cb) := by omega
        simp only [this, decide_false, Bool.false_and, Bool.or_false]

theorem extendByte_spec (factor : Nat) (v : Byte) (hf : 0 < factor) : ∀ (n j cb : Nat) (out : List Byte),
    cb + n * factor < 256 → cb + n * factor ≤ 8 * out.length →
    ∃ out', extendByte factor v n j cb out = .ok (cb + n * factor, out') ∧ out'.length = out.length ∧
      ∀ p, bit out' p = (bit out p ||
        (decide (cb ≤ p ∧ p < cb + n * factor) && v.getLsbD (j + (p - cb) / factor))) := by
  intro n
  induction n with
  | zero =>
    intro j cb out h1 h2
    refine ⟨out, by simp [extendByte], rfl, fun p => ?_⟩
    have : ¬ (cb ≤ p ∧ p < cb + 0 * factor) := by omega
    simp only [this, decide_false, Bool.false_and, Bool.or_false]
  | succ n ih =>
    intro j cb out h1 h2
    rw [Nat.succ_mul] at h1 h2
    obtain ⟨o1, a1, a2, a3⟩ := extendBits_spec (cb + factor) v j (factor + 1) cb out (by omega) (by omega)
      (by omega) (by omega)
    obtain ⟨o2, b1, b2, b3⟩ := ih (j + 1) (cb + factor) o1 (by omega) (by omega)
    refine ⟨o2, ?_, by rw [b2, a2], fun p => ?_⟩
    · simp only [extendByte, a1, b1]
      congr 2
      rw [Nat.succ_mul]; omega
    · rw [b3, a3, Bool.or_assoc]
      congr 1
      rw [Nat.succ_mul]
      by_cases c1 : cb ≤ p ∧ p < cb + factor
      · have c2 : ¬ (cb + factor ≤ p ∧ p < cb + factor + n * factor) := by omega
        have c3 : cb ≤ p ∧ p < cb + (n * factor + factor) := by omega
        have : (p - cb) / factor = 0 := Nat.div_eq_of_lt (by omega)
        rw [this, decide_eq_true c1, decide_eq_false c2, decide_eq_true c3]
        simp only [Bool.true_and, Bool.false_and, Bool.or_false, Nat.add_zero]
      · by_cases c2 : cb + factor ≤ p ∧ p < cb + factor + n * factor
        · have c3 : cb ≤ p ∧ p < cb + (n * factor + factor) := by omega
          have : (p - cb) / factor = (p - (cb + factor)) / factor + 1 := by
            rw [show p - cb = p - (cb + factor) + factor by omega, Nat.add_div_right _ hf]
          rw [this, decide_eq_false c1, decide_eq_true c2, decide_eq_true c3]
          simp only [Bool.true_and, Bool.false_and, Bool.false_or]
          congr 1
          omega
        · have c3 : ¬ (cb ≤ p ∧ p < cb + (n * factor + factor)) := by omega
          simp only [c1, c2, c3, decide_false, Bool.false_and, Bool.or_false]

theorem extendLoop_spec (factor cs : Nat) (hf : 0 < factor) (hd : factor ∣ cs) (hcs : cs < 32) :
    ∀ (n i : Nat) (srv out : List Byte), i + n ≤ srv.length → out.length = cs → cs ≤ (i + n) * factor →
      i * factor ≤ cs →
    ∃ srv' out', extendLoop factor cs n i (8 * (i * factor)) srv out = .ok (srv', out') ∧
      (∀ p, bit out' p = (bit out p || (decide (8 * (i * factor) ≤ p ∧ p < 8 * cs) && bit srv (p / factor)))) ∧
      (∀ p, bit srv' p = (bit srv p && !decide (i ≤ p / 8 ∧ p / 8 * factor < cs))) := by
  intro n
  induction n with
  | zero =>
    intro i srv out h1 h2 h3 h4
    rw [Nat.add_zero] at h3
    have he : i * factor = cs := by omega
    refine ⟨srv, out, rfl, fun p => ?_, fun p => ?_⟩
    · have : ¬ (8 * (i * factor) ≤ p ∧ p < 8 * cs) := by omega
      simp only [this, decide_false, Bool.false_and, Bool.or_false]
    · have : ¬ (i ≤ p / 8 ∧ p / 8 * factor < cs) := by
        intro ⟨a, b⟩
        have := Nat.mul_le_mul_right factor a
        omega
      simp only [this, decide_false, Bool.not_false, Bool.and_true]
  | succ n ih =>
    intro i srv out h1 h2 h3 h4
    simp only [extendLoop]
    by_cases hc : i * factor = cs
    · have hge : 8 * (i * factor) / 8 ≥ cs := by omega
      simp only [hge, if_true]
      refine ⟨srv, out, rfl, fun p => ?_, fun p => ?_⟩
      · have : ¬ (8 * (i * factor) ≤ p ∧ p < 8 * cs) := by omega
        simp only [this, decide_false, Bool.false_and, Bool.or_false]
      · have : ¬ (i ≤ p / 8 ∧ p / 8 * factor < cs) := by
          intro ⟨a, b⟩
          have := Nat.mul_le_mul_right factor a
          omega
        simp only [this, decide_false, Bool.not_false, Bool.and_true]
    · have hlt : ¬ (8 * (i * factor) / 8 ≥ cs) := by omega
      have hs : i < srv.length := by omega
      obtain ⟨q, hq⟩ := hd
      have hnext : (i + 1) * factor ≤ cs := by
        rw [hq, Nat.mul_comm factor q]
        apply Nat.mul_le_mul_right
        have : i * factor < q * factor := by rw [Nat.mul_comm q, ← hq]; omega
        exact Nat.lt_of_mul_lt_mul_right this
      have hn' := hnext
      rw [Nat.succ_mul] at hn'
      simp only [hlt, if_false, List.getElem?_eq_getElem hs, exchange_eq]
      obtain ⟨o1, a1, a2, a3⟩ := extendByte_spec factor srv[i] hf 8 0 (8 * (i * factor)) out (by omega) (by omega)
      rw [a1]
      simp only
      obtain ⟨s2, o2, b1, b2, b3⟩ := ih (i + 1) (srv.set i 0#8) o1 (by simp; omega) (by omega)
        (by rw [show i + 1 + n = i + (n + 1) by omega]; exact h3) hnext
      rw [show 8 * (i * factor) + 8 * factor = 8 * ((i + 1) * factor) by rw [Nat.succ_mul i factor]; omega]
      refine ⟨s2, o2, b1, fun p => ?_, fun p => ?_⟩
      · rw [b2, a3, Bool.or_assoc]
        congr 1
        rw [Nat.succ_mul i factor, bit_set_zero hs]
        by_cases c1 : 8 * (i * factor) ≤ p ∧ p < 8 * (i * factor) + 8 * factor
        · have c2 : ¬ (8 * (i * factor + factor) ≤ p ∧ p < 8 * cs) := by omega
          have c3 : 8 * (i * factor) ≤ p ∧ p < 8 * cs := by omega
          rw [decide_eq_true c1, decide_eq_false c2, decide_eq_true c3]
          simp only [Bool.true_and, Bool.false_and, Bool.or_false, Nat.zero_add]
          have e1 : p = p - 8 * (i * factor) + (8 * i) * factor := by
            rw [show 8 * i * factor = 8 * (i * factor) from Nat.mul_assoc _ _ _]; omega
          have e2 : p / factor = (p - 8 * (i * factor)) / factor + 8 * i := by
            conv => lhs; rw [e1]
            rw [Nat.add_mul_div_right _ _ hf]
          have e3 : (p - 8 * (i * factor)) / factor < 8 := by
            rw [Nat.div_lt_iff_lt_mul hf]; omega
          rw [e2, Nat.add_comm, bit_mk _ _ _ e3, List.getD_eq_getElem?_getD, List.getElem?_eq_getElem hs]
          rfl
        · by_cases c2 : 8 * (i * factor + factor) ≤ p ∧ p < 8 * cs
          · have c3 : 8 * (i * factor) ≤ p ∧ p < 8 * cs := by omega
            have c4 : ¬ p / factor / 8 = i := by
              intro h
              have : p / factor < 8 * i + 8 := by omega
              rw [Nat.div_lt_iff_lt_mul hf, Nat.add_mul, Nat.mul_assoc] at this
              omega
            rw [decide_eq_false c1, decide_eq_true c2, decide_eq_true c3, decide_eq_false c4]
            simp only [Bool.true_and, Bool.false_and, Bool.false_or, Bool.not_false, Bool.and_true]
          · have c3 : ¬ (8 * (i * factor) ≤ p ∧ p < 8 * cs) := by omega
            simp only [c1, c2, c3, decide_false, Bool.false_and, Bool.or_false]
      · rw [b3, bit_set_zero hs, Bool.and_assoc, ← Bool.not_or, ← Bool.decide_or]
        congr 2
        apply decide_eq_decide.mpr
        constructor
        · rintro (h | ⟨h, h'⟩)
          · rw [h]; exact ⟨Nat.le_refl _, by omega⟩
          · exact ⟨by omega, h'⟩
        · rintro ⟨h, h'⟩
          by_cases e : p / 8 = i
          · exact .inl e
          · exact .inr ⟨by omega, h'⟩

/-! ## Combining to larger pages -/

theorem succ_div' (a f : Nat) (hf : 0 < f) :
    (a + 1) / f = a / f + (if a % f = f - 1 then 1 else 0) := by
  have h1 := Nat.div_add_mod a f
  have h2 := Nat.mod_lt a hf
  by_cases h : a % f = f - 1
  · simp only [h, if_true]
    have : a + 1 = f * (a / f + 1) := by rw [Nat.mul_add]; omega
    rw [this, Nat.mul_div_cancel_left _ hf]
  · simp only [h, if_false, Nat.add_zero]
    have : a + 1 = f * (a / f) + (a % f + 1) := by omega
    rw [this, Nat.mul_add_div hf, Nat.div_eq_of_lt (a := a % f + 1) (b := f) (by omega), Nat.add_zero]

theorem combineByte_spec (factor cs i : Nat) (v : Byte) (hf : 0 < factor) (hcs : cs ≤ 32)
    (hi : 8 * i + 8 ≤ 8 * cs * factor) : ∀ (n j : Nat) (out : List Byte), j + n = 8 → out.length = cs →
    ∃ cb' out' b, combineByte factor cs i v n j ((8 * i + j) / factor) out = .ok (cb', out', b) ∧
      out'.length = cs ∧
      (∀ p, bit out' p = true ↔ bit out p = true ∨
        ∃ t, j ≤ t ∧ t < 8 ∧ (8 * i + t) / factor = p ∧ v.getLsbD t = true) ∧
      (8 * i + 8 < 8 * cs * factor → 0 < n → b = false ∧ cb' = (8 * i + 8) / factor) ∧
      (n = 0 → b = false ∧ cb' = (8 * i + 8) / factor) := by
  intro n
  induction n with
  | zero =>
    intro j out hj ho
    refine ⟨_, out, false, rfl, ho, fun p => ?_, fun _ h => by omega, fun _ => ⟨rfl, ?_⟩⟩
    · constructor
      · exact Or.inl
      · rintro (h | ⟨t, h1, h2, _⟩)
        · exact h
        · omega
    · rw [show j = 8 by omega]
  | succ n ih =>
    intro j out hj ho
    have hcb : (8 * i + j) / factor < 8 * cs := by
      rw [Nat.div_lt_iff_lt_mul hf]; omega
    obtain ⟨o1, a1, a2, a3⟩ := orBit_spec (out := out) (idx := (8 * i + j) / factor) (by omega) v j
    have hsd := succ_div' (8 * i + j) factor hf
    have hmm : (i * 8 + j) % factor = (8 * i + j) % factor := by rw [Nat.mul_comm i 8]
    -- what has been OR-ed in, given what the rest does
    have merge : ∀ (o2 : List Byte), (∀ p, bit o2 p = true ↔ bit o1 p = true ∨
          ∃ t, j + 1 ≤ t ∧ t < 8 ∧ (8 * i + t) / factor = p ∧ v.getLsbD t = true) →
        ∀ p, bit o2 p = true ↔ bit out p = true ∨
          ∃ t, j ≤ t ∧ t < 8 ∧ (8 * i + t) / factor = p ∧ v.getLsbD t = true := by
      intro o2 h p
      rw [h p, a3 p]
      simp only [Bool.or_eq_true, Bool.and_eq_true, decide_eq_true_eq, or_assoc]
      apply or_congr_right
      constructor
      · rintro (⟨rfl, h⟩ | ⟨t, h1, h2⟩)
        · exact ⟨j, Nat.le_refl _, by omega, rfl, h⟩
        · exact ⟨t, by omega, h2⟩
      · rintro ⟨t, h1, h2, h3, h4⟩
        by_cases e : t = j
        · subst e; exact .inl ⟨h3.symm, h4⟩
        · exact .inr ⟨t, by omega, h2, h3, h4⟩
    -- the last bit of the byte
    have done : ∀ (cb' : Nat) (b : Bool), n = 0 →
        combineByte factor cs i v (n + 1) j ((8 * i + j) / factor) out = .ok (cb', o1, b) →
        (8 * i + 8 < 8 * cs * factor → b = false ∧ cb' = (8 * i + 8) / factor) →
        ∃ cb' out' b, combineByte factor cs i v (n + 1) j ((8 * i + j) / factor) out = .ok (cb', out', b) ∧
          out'.length = cs ∧
          (∀ p, bit out' p = true ↔ bit out p = true ∨
            ∃ t, j ≤ t ∧ t < 8 ∧ (8 * i + t) / factor = p ∧ v.getLsbD t = true) ∧
          (8 * i + 8 < 8 * cs * factor → 0 < n + 1 → b = false ∧ cb' = (8 * i + 8) / factor) ∧
          (n + 1 = 0 → b = false ∧ cb' = (8 * i + 8) / factor) := by
      intro cb' b hn hc hb
      refine ⟨cb', o1, b, hc, by omega, merge o1 (fun p => ?_), fun h _ => hb h, by omega⟩
      constructor
      · exact Or.inl
      · rintro (h | ⟨t, h1, h2, _⟩)
        · exact h
        · omega
    by_cases hm : (8 * i + j) % factor = factor - 1
    · simp only [hm, if_true] at hsd
      by_cases hlast : (8 * i + j) / factor + 1 = 8 * cs
      · -- all client bits done: this is the last server bit
        have hq : 8 * i + j + 1 ≥ 8 * cs * factor := by
          have := Nat.div_mul_le_self (8 * i + j + 1) factor
          rw [hsd, hlast] at this
          exact this
        have hn : n = 0 := by omega
        subst hn
        by_cases hw : cs = 32
        · refine done 0 false rfl ?_ (fun h => by omega)
          simp only [combineByte, a1, hmm, hm, if_true]
          rw [hlast, hw]
          simp
        · refine done (8 * cs) true rfl ?_ (fun h => by omega)
          simp only [combineByte, a1, hmm, hm, if_true]
          rw [hlast, Nat.mod_eq_of_lt (by omega)]
          have : 8 * cs / 8 ≥ cs := by omega
          simp only [this, if_true]
      · have hlt : (8 * i + j) / factor + 1 < 256 := by omega
        have hlt2 : ¬ ((8 * i + j) / factor + 1) / 8 ≥ cs := by omega
        obtain ⟨cb', o2, b, b1, b2, b3, b4, b5⟩ := ih (j + 1) o1 (by omega) (by omega)
        refine ⟨cb', o2, b, ?_, b2, merge o2 b3, fun h _ => ?_, by omega⟩
        · simp only [combineByte, a1, hmm, hm, if_true]
          rw [Nat.mod_eq_of_lt hlt]
          simp only [hlt2, if_false]
          rw [← hsd]
          exact b1
        · by_cases hn : n = 0
          · exact b5 hn
          · exact b4 h (by omega)
    · simp only [hm, if_false, Nat.add_zero] at hsd
      obtain ⟨cb', o2, b, b1, b2, b3, b4, b5⟩ := ih (j + 1) o1 (by omega) (by omega)
      refine ⟨cb', o2, b, ?_, b2, merge o2 b3, fun h _ => ?_, by omega⟩
      · simp only [combineByte, a1, hmm, hm, if_false]
        rw [← hsd]
        exact b1
      · by_cases hn : n = 0
        · exact b5 hn
        · exact b4 h (by omega)

theorem combineLoop_spec (factor cs : Nat) (hf : 0 < factor) (hcs : cs ≤ 32) :
    ∀ (n i : Nat) (srv out : List Byte), i + n ≤ srv.length → out.length = cs → i + n ≤ cs * factor →
    ∃ srv' out', combineLoop factor cs n i (8 * i / factor) srv out = .ok (srv', out') ∧
      (∀ p, bit out' p = true ↔ bit out p = true ∨
        ∃ q, 8 * i ≤ q ∧ q < 8 * (i + n) ∧ q / factor = p ∧ bit srv q = true) ∧
      (∀ p, bit srv' p = (bit srv p && !decide (i ≤ p / 8 ∧ p / 8 < i + n))) := by
  intro n
  induction n with
  | zero =>
    intro i srv out h1 h2 h3
    refine ⟨srv, out, rfl, fun p => ?_, fun p => ?_⟩
    · constructor
      · exact Or.inl
      · rintro (h | ⟨t, h1, h2, _⟩)
        · exact h
        · omega
    · have : ¬ (i ≤ p / 8 ∧ p / 8 < i + 0) := by omega
      simp only [this, decide_false, Bool.not_false, Bool.and_true]
  | succ n ih =>
    intro i srv out h1 h2 h3
    have hs : i < srv.length := by omega
    have h8 : 8 * i + 8 ≤ 8 * cs * factor := by rw [Nat.mul_assoc]; omega
    have hcb : 8 * i / factor < 8 * cs := by
      rw [Nat.div_lt_iff_lt_mul hf]; omega
    have hnot : ¬ 8 * i / factor / 8 ≥ cs := by omega
    simp only [combineLoop, hnot, if_false, List.getElem?_eq_getElem hs, exchange_eq]
    obtain ⟨cb', o1, b, a1, a2, a3, a4, _⟩ := combineByte_spec factor cs i srv[i] hf hcs h8 8 0 out (by omega) h2
    have hbit : ∀ t, t < 8 → srv[i].getLsbD t = bit srv (8 * i + t) := by
      intro t ht
      rw [bit_mk _ _ _ ht, List.getD_eq_getElem?_getD, List.getElem?_eq_getElem hs]
      rfl
    rw [Nat.add_zero] at a1
    rw [a1]
    -- bits of the byte just done, as global server bits
    have hb1 : ∀ p, bit o1 p = true ↔ bit out p = true ∨
        ∃ q, 8 * i ≤ q ∧ q < 8 * (i + 1) ∧ q / factor = p ∧ bit srv q = true := by
      intro p
      rw [a3 p]
      apply or_congr_right
      constructor
      · rintro ⟨t, _, h2, h3, h4⟩
        exact ⟨8 * i + t, by omega, by omega, h3, by rw [← hbit t h2]; exact h4⟩
      · rintro ⟨q, h1, h2, h3, h4⟩
        refine ⟨q - 8 * i, by omega, by omega, ?_, ?_⟩
        · rw [show 8 * i + (q - 8 * i) = q by omega]; exact h3
        · rw [hbit _ (by omega), show 8 * i + (q - 8 * i) = q by omega]; exact h4
    by_cases hfull : 8 * i + 8 < 8 * cs * factor
    · obtain ⟨hbf, hcb'⟩ := a4 hfull (by omega)
      subst hbf hcb'
      simp only
      obtain ⟨s2, o2, b1, b2, b3⟩ := ih (i + 1) (srv.set i 0#8) o1 (by simp; omega) a2 (by omega)
      rw [show 8 * (i + 1) = 8 * i + 8 by omega] at b1
      refine ⟨s2, o2, b1, fun p => ?_, fun p => ?_⟩
      · rw [b2 p, hb1 p, or_assoc]
        apply or_congr_right
        constructor
        · rintro (⟨q, g1, g2, g3, g4⟩ | ⟨q, g1, g2, g3, g4⟩)
          · exact ⟨q, by omega, by omega, g3, g4⟩
          · rw [bit_set_zero hs] at g4
            simp only [Bool.and_eq_true] at g4
            exact ⟨q, by omega, by omega, g3, g4.1⟩
        · rintro ⟨q, g1, g2, g3, g4⟩
          by_cases e : q < 8 * (i + 1)
          · exact .inl ⟨q, g1, e, g3, g4⟩
          · refine .inr ⟨q, by omega, by omega, g3, ?_⟩
            have : ¬ q / 8 = i := by omega
            rw [bit_set_zero hs]; simp [this, g4]
      · rw [b3, bit_set_zero hs, Bool.and_assoc, ← Bool.not_or, ← Bool.decide_or]
        congr 2
        apply decide_eq_decide.mpr
        omega
    · -- the last server byte
      have hn : n = 0 := by rw [Nat.mul_assoc] at hfull; omega
      subst hn
      have hsrv : ∀ p, bit (srv.set i 0#8) p = (bit srv p && !decide (i ≤ p / 8 ∧ p / 8 < i + (0 + 1))) := by
        intro p
        rw [bit_set_zero hs]
        congr 2
        apply decide_eq_decide.mpr
        omega
      cases b with
      | true => exact ⟨_, _, rfl, hb1, hsrv⟩
      | false => exact ⟨_, _, rfl, hb1, hsrv⟩

end Verif.Dma
