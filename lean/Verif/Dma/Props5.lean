import Verif.Dma.Props4

/-!
# C14, C15, C18: queries at another page size, and which queries are answered
-/

namespace Verif.Dma
open Verif

/-- The hypotheses of a query for the first `len` bytes of region `i`, accepted by all checks. -/
structure Accepted (c : Ctl) (hint i len cp : Nat) (r : Region) (buf : List Byte) : Prop where
  hint : hint < c.maxRegions
  reg : c.regions[i]? = some r
  fd : r.fd ≠ none
  le : len ≤ r.info.len
  sp : c.dirtyPgsize ≤ len
  size : getBitmapSize len cp = .ok buf.length

theorem pages_mul {len cp f : Nat} (hcp : 0 < cp) (hf : 0 < f) : pages len cp ≤ pages len (cp * f) * f := by
  unfold pages
  rw [Nat.div_le_iff_le_mul_add_pred hcp]
  have hq : len + cp * f - 1 < cp * f * ((len + cp * f - 1) / (cp * f)) + cp * f := by
    have := Nat.div_add_mod (len + cp * f - 1) (cp * f)
    have := Nat.mod_lt (len + cp * f - 1) (Nat.mul_pos hcp hf)
    omega
  have he : cp * ((len + cp * f - 1) / (cp * f) * f) = cp * f * ((len + cp * f - 1) / (cp * f)) := by
    rw [Nat.mul_comm _ f, Nat.mul_assoc]
  have : 0 < cp * f := Nat.mul_pos hcp hf
  rw [he]
  omega

/-- A page that begins inside the range is one of its pages. -/
theorem lt_pages {len pg p : Nat} (hp : 0 < pg) : p < pages len pg ↔ p * pg < len := by
  unfold pages
  rw [← Nat.succ_le_iff, Nat.le_div_iff_mul_le hp, Nat.succ_mul]
  omega

theorem dirtyPage_iff {c : Ctl} {i : Nat} {r : Region} {srv : List Byte} (hr : c.regions[i]? = some r)
    (hd : r.dirty = some srv) (p : Nat) : DirtyPage c i p ↔ bit srv p = true := by
  constructor
  · rintro ⟨r1, b1, h1, h2, h3⟩
    rw [hr] at h1; cases h1
    rw [hd] at h2; cases h2
    exact h3
  · intro h; exact ⟨r, srv, hr, hd, h⟩

theorem ceil64_mono {a b : Nat} (h : a ≤ b) : (a + 63) / 64 ≤ (b + 63) / 64 := Nat.div_le_div_right (by omega)

/-- The bitmap of a region is at least as long as what a query for a part of it looks at. -/
theorem srv_len {c : Ctl} (hg : Good c) {i len : Nat} {r : Region} (hr : c.regions[i]? = some r) (hfd : r.fd ≠ none)
    (hsp : c.dirtyPgsize ≠ 0) (hle : len ≤ r.info.len) :
    ∃ srv, r.dirty = some srv ∧ (pages len c.dirtyPgsize + 63) / 64 * 8 ≤ srv.length := by
  have hmem := List.mem_of_getElem? hr
  obtain ⟨srv, hd, hsb⟩ := (hg.log r hmem).2.2 hsp hfd
  obtain ⟨_, _, hsl⟩ := bitmapSize_inv hsb (hg.small r hmem)
  refine ⟨srv, hd, ?_⟩
  rw [hsl]
  have : pages len c.dirtyPgsize ≤ pages r.info.len c.dirtyPgsize := by
    unfold pages; exact Nat.div_le_div_right (by omega)
  have := ceil64_mono this
  omega

/-! ## C14: a finer page size -/

/-- C14: with logging page size `cp * 2^d` (`d > 0`), a query at page size `cp = 2^a` into a zeroed buffer whose
size is below 32 bytes and a multiple of the factor is answered; client page `j` is reported exactly when
server page `j / factor` was dirty; every page of the range is cleared and nothing else. -/
theorem C14_extend (cfg : Cfg) (m s : Nat) (ops : List Op) (hs : s ≤ 2 ^ 62)
    (h : ∀ op ∈ ops, op.Bounded ∧ op.NoWrap) (a d : Nat) (hd : 0 < d)
    (hk : (run cfg (create m s) ops).1.dirtyPgsize = 2 ^ a * 2 ^ d) (hint i len : Nat) (r : Region) (buf : List Byte)
    (hacc : Accepted (run cfg (create m s) ops).1 hint i len (2 ^ a) r buf)
    (hz : ∀ p, bit buf p = false) (h32 : buf.length < 32) (hdvd : 2 ^ d ∣ buf.length) :
    let c := (run cfg (create m s) ops).1
    ∃ c' out, dirtyPageGet c hint r.info.base len (2 ^ a) buf.length buf = (c', .done out) ∧
      out.length = buf.length ∧
      (∀ j, j < 8 * buf.length → (bit out j = true ↔ DirtyPage c i (j / 2 ^ d))) ∧
      (∀ p, p * (2 ^ a * 2 ^ d) < len → ¬ DirtyPage c' i p) ∧
      (∀ p, DirtyPage c' i p → DirtyPage c i p) ∧
      ∀ j p, j ≠ i → (DirtyPage c' j p ↔ DirtyPage c j p) := by
  have hg := good_run cfg m s ops hs h
  intro c
  change Good c at hg
  change c.dirtyPgsize = _ at hk
  change Accepted c _ _ _ _ _ _ at hacc
  clear_value c
  obtain ⟨a1, a2, a3, a4, a5, a6⟩ := hacc
  have hmem := List.mem_of_getElem? a2
  have hp1 := Nat.two_pow_pos a
  have hp2 := Nat.two_pow_pos d
  have hpos : 0 < 2 ^ a * 2 ^ d := Nat.mul_pos hp1 hp2
  have hsm := hg.small r hmem
  have hsp : c.dirtyPgsize ≠ 0 := by rw [hk]; omega
  obtain ⟨srv, hdirty, hsl⟩ := srv_len hg a2 a3 hsp a4
  obtain ⟨_, b2, b3⟩ := bitmapSize_inv a6 (by omega)
  have hss := bitmapSize_small hsp a5 (by omega)
  rw [show pages len c.dirtyPgsize = pages len (2 ^ a * 2 ^ d) by rw [hk]] at hss
  have hred := query_reduce (buf := buf) hg a1 a2 (by omega) a4 hsp ((badClientPg_iff _).mpr ⟨a, rfl⟩) hss a6 a3 hdirty
  rw [hk] at hsl
  have hlt : 2 ^ a < 2 ^ a * 2 ^ d := by
    have : 2 ≤ 2 ^ d := Nat.pow_le_pow_right (by decide : 0 < 2) hd
    calc 2 ^ a < 2 ^ a * 2 := by omega
      _ ≤ _ := Nat.mul_le_mul_left _ this
  have hfac : 2 ^ a * 2 ^ d / 2 ^ a = 2 ^ d := Nat.mul_div_cancel_left _ hp1
  have hcs : buf.length ≤ (0 + (pages len (2 ^ a * 2 ^ d) + 63) / 64 * 8) * 2 ^ d := by
    have h1 := pages_mul (len := len) hp1 hp2
    rw [Nat.zero_add, b3]
    generalize pages len (2 ^ a * 2 ^ d) = P at h1
    have h2 : P ≤ (P + 63) / 64 * 64 := by omega
    have h3 : P * 2 ^ d ≤ (P + 63) / 64 * 64 * 2 ^ d := Nat.mul_le_mul_right _ h2
    have h4 : (P + 63) / 64 * 64 * 2 ^ d = ((P + 63) / 64 * 2 ^ d) * 64 := by
      rw [Nat.mul_assoc, Nat.mul_comm 64, ← Nat.mul_assoc]
    have h5 : (P + 63) / 64 * 8 * 2 ^ d = ((P + 63) / 64 * 2 ^ d) * 8 := by
      rw [Nat.mul_assoc, Nat.mul_comm 8, ← Nat.mul_assoc]
    omega
  obtain ⟨srv', out, e1, e2, e3⟩ := extendLoop_spec (2 ^ d) buf.length hp2 hdvd h32
    ((pages len (2 ^ a * 2 ^ d) + 63) / 64 * 8) 0 srv buf (by omega) rfl hcs (by omega)
  rw [Nat.zero_mul, Nat.mul_zero] at e1
  have hgb : getBits c.dirtyPgsize (2 ^ a) ((pages len (2 ^ a * 2 ^ d) + 63) / 64 * 8) buf.length srv buf = .ok (srv', out) := by
    unfold getBits getExtend
    rw [hk, if_neg (by omega), if_pos hlt, hfac, e1]
  rw [hgb] at hred
  refine ⟨_, out, hred, (getBits_len hgb).2, fun j hj => ?_, fun p hp => ?_, fun p hp => ?_, fun j p hj => ?_⟩
  · rw [dirtyPage_iff a2 hdirty, e2, hz]
    have : 8 * (0 * 2 ^ d) ≤ j ∧ j < 8 * buf.length := ⟨by omega, hj⟩
    rw [decide_eq_true this]
    simp
  · rw [dirtyPage_set a2, if_pos rfl, e3]
    have hlt : p / 8 * 2 ^ d < buf.length := by
      have h1 : p * 2 ^ d < pages len (2 ^ a) := by
        rw [lt_pages hp1, Nat.mul_assoc, Nat.mul_comm (2 ^ d)]; exact hp
      have h2 : p / 8 * 8 * 2 ^ d ≤ p * 2 ^ d := Nat.mul_le_mul_right _ (Nat.div_mul_le_self _ _)
      have h3 : p / 8 * 8 * 2 ^ d = 8 * (p / 8 * 2 ^ d) := by
        rw [Nat.mul_comm (p / 8) 8, Nat.mul_assoc]
      omega
    have : 0 ≤ p / 8 ∧ p / 8 * 2 ^ d < buf.length := ⟨Nat.zero_le _, hlt⟩
    rw [decide_eq_true this]
    simp
  · rw [dirtyPage_set a2, if_pos rfl, e3] at hp
    rw [dirtyPage_iff a2 hdirty]
    simp only [Bool.and_eq_true] at hp
    exact hp.1
  · rw [dirtyPage_set a2, if_neg hj]

theorem orBit_ok_lt {out out' : List Byte} {i : Nat} {b : Byte} (h : orBit out i b = .ok out') : i / 8 < out.length := by
  unfold orBit at h
  split at h
  · cases h
  · rename_i x hx
    exact (List.getElem?_eq_some_iff.mp hx).1

/-- The inner loop ends only if its upper limit fits in the eight-bit counter and in the buffer. -/
theorem extendBits_ok (e : Nat) (b : Byte) : ∀ (fuel cb : Nat) (out : List Byte) (cb' : Nat) (out' : List Byte),
    cb < 256 → cb ≤ e → extendBits e b fuel cb out = .ok (cb', out') →
    cb' = e ∧ e < 256 ∧ (cb < e → e ≤ 8 * out.length) := by
  intro fuel
  induction fuel with
  | zero =>
    intro cb out cb' out' h1 h2 h
    unfold extendBits at h
    split at h
    · cases h
    · cases h; omega
  | succ n ih =>
    intro cb out cb' out' h1 h2 h
    unfold extendBits at h
    by_cases hc : cb < e
    · simp only [hc, if_true] at h
      split at h
      · rename_i out1 ho
        have hlt := orBit_ok_lt ho
        have hl := orBit_len ho
        by_cases h255 : cb = 255
        · subst h255
          have := ih _ _ _ _ (Nat.mod_lt _ (by decide)) (by omega) h
          omega
        · rw [Nat.mod_eq_of_lt (by omega)] at h
          have := ih _ _ _ _ (by omega) (by omega) h
          rw [hl] at this
          omega
      · cases h
      · cases h
    · simp only [hc, if_false] at h
      cases h
      omega

theorem extendByte_ok (factor : Nat) (hf : 0 < factor) (v : Byte) : ∀ (n j cb : Nat) (out : List Byte) (cb' : Nat)
    (out' : List Byte), cb < 256 → extendByte factor v n j cb out = .ok (cb', out') →
    cb' = cb + n * factor ∧ cb' < 256 ∧ (0 < n → cb' ≤ 8 * out.length) := by
  intro n
  induction n with
  | zero => intro j cb out cb' out' h1 h; simp only [extendByte] at h; cases h; omega
  | succ n ih =>
    intro j cb out cb' out' h1 h
    simp only [extendByte] at h
    split at h
    · rename_i cb1 out1 h2
      have e1 := extendBits_ok _ _ _ _ _ _ _ h1 (by omega) h2
      have e2 := ih _ _ _ _ _ (by omega) h
      rw [extendBits_len _ _ _ _ _ _ _ h2] at e2
      rw [Nat.succ_mul n factor]
      refine ⟨by omega, by omega, fun _ => ?_⟩
      rcases Nat.eq_zero_or_pos n with rfl | hn
      · have := e1.2.2 (by omega)
        omega
      · exact e2.2.2 hn
    · cases h
    · cases h

theorem extendLoop_ok (factor cs : Nat) (hf : 0 < factor) : ∀ (n i : Nat) (srv out srv' out' : List Byte),
    out.length = cs → i * factor ≤ cs → i * factor < 32 → cs ≤ (i + n) * factor →
    extendLoop factor cs n i (8 * (i * factor)) srv out = .ok (srv', out') → cs < 32 ∧ factor ∣ cs := by
  intro n
  induction n with
  | zero =>
    intro i srv out srv' out' h1 h2 h3 h4 h
    have : cs = i * factor := by rw [Nat.add_zero] at h4; omega
    exact ⟨by omega, this ▸ Nat.dvd_mul_left _ _⟩
  | succ n ih =>
    intro i srv out srv' out' h1 h2 h3 h4 h
    simp only [extendLoop] at h
    by_cases hc : 8 * (i * factor) / 8 ≥ cs
    · have : cs = i * factor := by omega
      exact ⟨by omega, this ▸ Nat.dvd_mul_left _ _⟩
    · rw [if_neg hc] at h
      split at h
      · cases h
      · split at h
        · rename_i cb1 out1 h5
          obtain ⟨g1, g2, g3⟩ := extendByte_ok factor hf _ _ _ _ _ _ _ (by omega) h5
          have g3 := g3 (by decide)
          have he : 8 * (i * factor) + 8 * factor = 8 * ((i + 1) * factor) := by
            rw [Nat.succ_mul i factor]; omega
          rw [he] at g1
          rw [g1] at h
          refine ih (i + 1) _ _ _ _ ?_ ?_ ?_ ?_ h
          · rw [extendByte_len _ _ _ _ _ _ _ _ h5, h1]
          · omega
          · omega
          · rw [show i + 1 + n = i + (n + 1) by omega]; exact h4
        · cases h
        · cases h

theorem orBit_noerr (out : List Byte) (i : Nat) (b : Byte) (e : Nat) : orBit out i b ≠ .err e := by
  unfold orBit; split <;> simp

theorem extendBits_noerr (en : Nat) (b : Byte) (e : Nat) : ∀ (fuel cb : Nat) (out : List Byte),
    extendBits en b fuel cb out ≠ .err e := by
  intro fuel
  induction fuel with
  | zero => intro cb out; unfold extendBits; split <;> simp
  | succ n ih =>
    intro cb out
    unfold extendBits
    by_cases hc : cb < en
    · simp only [hc, if_true]
      split
      · exact ih _ _
      · rename_i h; exact absurd h (orBit_noerr _ _ _ _)
      · simp
    · simp [hc]

theorem extendByte_noerr (factor : Nat) (v : Byte) (e : Nat) : ∀ (n j cb : Nat) (out : List Byte),
    extendByte factor v n j cb out ≠ .err e := by
  intro n
  induction n with
  | zero => intro j cb out; simp [extendByte]
  | succ n ih =>
    intro j cb out
    simp only [extendByte]
    split
    · exact ih _ _ _
    · rename_i h; exact absurd h (extendBits_noerr _ _ _ _ _ _)
    · simp

theorem extendLoop_noerr (factor cs e : Nat) : ∀ (n i cb : Nat) (srv out : List Byte),
    extendLoop factor cs n i cb srv out ≠ .err e := by
  intro n
  induction n with
  | zero => intro i cb srv out; simp [extendLoop]
  | succ n ih =>
    intro i cb srv out
    simp only [extendLoop]
    split
    · simp
    · split
      · simp
      · split
        · exact ih _ _ _ _
        · rename_i h; exact absurd h (extendByte_noerr _ _ _ _ _ _ _)
        · simp

/-- The condition of `C14_extend` is exact: in every other case the query ends in a memory error or never. -/
theorem C14_exact (cfg : Cfg) (m s : Nat) (ops : List Op) (hs : s ≤ 2 ^ 62)
    (h : ∀ op ∈ ops, op.Bounded ∧ op.NoWrap) (a d : Nat) (hd : 0 < d)
    (hk : (run cfg (create m s) ops).1.dirtyPgsize = 2 ^ a * 2 ^ d) (hint i len : Nat) (r : Region) (buf : List Byte)
    (hacc : Accepted (run cfg (create m s) ops).1 hint i len (2 ^ a) r buf)
    (hbad : ¬ (buf.length < 32 ∧ 2 ^ d ∣ buf.length)) :
    ∃ c' f, dirtyPageGet (run cfg (create m s) ops).1 hint r.info.base len (2 ^ a) buf.length buf = (c', .fault f) := by
  generalize hc : (run cfg (create m s) ops).1 = c at *
  have hg : Good c := hc ▸ good_run cfg m s ops hs h
  obtain ⟨a1, a2, a3, a4, a5, a6⟩ := hacc
  have hmem := List.mem_of_getElem? a2
  have hp1 := Nat.two_pow_pos a
  have hp2 := Nat.two_pow_pos d
  have hpos : 0 < 2 ^ a * 2 ^ d := Nat.mul_pos hp1 hp2
  have hsm := hg.small r hmem
  have hsp : c.dirtyPgsize ≠ 0 := by rw [hk]; omega
  obtain ⟨srv, hdirty, hsl⟩ := srv_len hg a2 a3 hsp a4
  obtain ⟨_, b2, b3⟩ := bitmapSize_inv a6 (by omega)
  have hss := bitmapSize_small hsp a5 (by omega)
  rw [show pages len c.dirtyPgsize = pages len (2 ^ a * 2 ^ d) by rw [hk]] at hss
  have hred := query_reduce (buf := buf) hg a1 a2 (by omega) a4 hsp ((badClientPg_iff _).mpr ⟨a, rfl⟩) hss a6 a3 hdirty
  rw [hk] at hsl
  have hlt : 2 ^ a < 2 ^ a * 2 ^ d := by
    have : 2 ≤ 2 ^ d := Nat.pow_le_pow_right (by decide : 0 < 2) hd
    calc 2 ^ a < 2 ^ a * 2 := by omega
      _ ≤ _ := Nat.mul_le_mul_left _ this
  have hfac : 2 ^ a * 2 ^ d / 2 ^ a = 2 ^ d := Nat.mul_div_cancel_left _ hp1
  have hcs : buf.length ≤ (0 + (pages len (2 ^ a * 2 ^ d) + 63) / 64 * 8) * 2 ^ d := by
    have h1 := pages_mul (len := len) hp1 hp2
    rw [Nat.zero_add, b3]
    generalize pages len (2 ^ a * 2 ^ d) = P at h1
    have h2 : P ≤ (P + 63) / 64 * 64 := by omega
    have h3 : P * 2 ^ d ≤ (P + 63) / 64 * 64 * 2 ^ d := Nat.mul_le_mul_right _ h2
    have h4 : (P + 63) / 64 * 64 * 2 ^ d = ((P + 63) / 64 * 2 ^ d) * 64 := by
      rw [Nat.mul_assoc, Nat.mul_comm 64, ← Nat.mul_assoc]
    have h5 : (P + 63) / 64 * 8 * 2 ^ d = ((P + 63) / 64 * 2 ^ d) * 8 := by
      rw [Nat.mul_assoc, Nat.mul_comm 8, ← Nat.mul_assoc]
    omega
  have hgb : getBits c.dirtyPgsize (2 ^ a) ((pages len (2 ^ a * 2 ^ d) + 63) / 64 * 8) buf.length srv buf =
      extendLoop (2 ^ d) buf.length ((pages len (2 ^ a * 2 ^ d) + 63) / 64 * 8) 0 (8 * (0 * 2 ^ d)) srv buf := by
    unfold getBits getExtend
    rw [hk, if_neg (by omega), if_pos hlt, hfac, Nat.zero_mul, Nat.mul_zero]
  rw [hgb] at hred
  cases hx : extendLoop (2 ^ d) buf.length ((pages len (2 ^ a * 2 ^ d) + 63) / 64 * 8) 0 (8 * (0 * 2 ^ d)) srv buf with
  | ok v =>
    obtain ⟨v1, v2⟩ := v
    exact absurd (extendLoop_ok (2 ^ d) buf.length hp2 _ 0 srv buf v1 v2 rfl (by omega) (by omega) hcs hx) hbad
  | err e => exact absurd hx (extendLoop_noerr _ _ _ _ _ _ _ _)
  | fault f => rw [hx] at hred; exact ⟨_, f, hred⟩

/-! ## C15: a coarser page size -/

/-- C15: with logging page size `sp = 2^b`, a query at page size `sp * 2^d` (`d > 0`) into a zeroed buffer of at
most 32 bytes is answered; client page `j` is reported exactly when one of its server pages was dirty; all
pages of the range are cleared and nothing else. -/
theorem C15_combine (cfg : Cfg) (m s : Nat) (ops : List Op) (hs : s ≤ 2 ^ 62)
    (h : ∀ op ∈ ops, op.Bounded ∧ op.NoWrap) (b d : Nat) (hd : 0 < d)
    (hk : (run cfg (create m s) ops).1.dirtyPgsize = 2 ^ b) (hint i len : Nat) (r : Region) (buf : List Byte)
    (hacc : Accepted (run cfg (create m s) ops).1 hint i len (2 ^ b * 2 ^ d) r buf)
    (hz : ∀ p, bit buf p = false) (h32 : buf.length ≤ 32) :
    let c := (run cfg (create m s) ops).1
    ∃ c' out, dirtyPageGet c hint r.info.base len (2 ^ b * 2 ^ d) buf.length buf = (c', .done out) ∧
      out.length = buf.length ∧
      (∀ j, (bit out j = true ↔ ∃ q, q < (pages len (2 ^ b) + 63) / 64 * 64 ∧ q / 2 ^ d = j ∧ DirtyPage c i q)) ∧
      (∀ p, p * 2 ^ b < len → ¬ DirtyPage c' i p) ∧
      (∀ p, DirtyPage c' i p → DirtyPage c i p) ∧
      ∀ j p, j ≠ i → (DirtyPage c' j p ↔ DirtyPage c j p) := by
  have hg := good_run cfg m s ops hs h
  intro c
  change Good c at hg
  change c.dirtyPgsize = _ at hk
  change Accepted c _ _ _ _ _ _ at hacc
  clear_value c
  obtain ⟨a1, a2, a3, a4, a5, a6⟩ := hacc
  have hmem := List.mem_of_getElem? a2
  have hp1 := Nat.two_pow_pos b
  have hp2 := Nat.two_pow_pos d
  have hsm := hg.small r hmem
  have hsp : c.dirtyPgsize ≠ 0 := by rw [hk]; omega
  obtain ⟨srv, hdirty, hsl⟩ := srv_len hg a2 a3 hsp a4
  obtain ⟨_, b2, b3⟩ := bitmapSize_inv a6 (by omega)
  have hss := bitmapSize_small hsp a5 (by omega)
  rw [show pages len c.dirtyPgsize = pages len (2 ^ b) by rw [hk]] at hss
  have hred := query_reduce (buf := buf) hg a1 a2 (by omega) a4 hsp
    ((badClientPg_iff _).mpr ⟨b + d, (Nat.pow_add 2 b d).symm⟩) hss a6 a3 hdirty
  rw [hk] at hsl
  have hlt : 2 ^ b < 2 ^ b * 2 ^ d := by
    have : 2 ≤ 2 ^ d := Nat.pow_le_pow_right (by decide : 0 < 2) hd
    calc 2 ^ b < 2 ^ b * 2 := by omega
      _ ≤ _ := Nat.mul_le_mul_left _ this
  have hfac : 2 ^ b * 2 ^ d / 2 ^ b = 2 ^ d := Nat.mul_div_cancel_left _ hp1
  have hcs : 0 + (pages len (2 ^ b) + 63) / 64 * 8 ≤ buf.length * 2 ^ d := by
    have h1 := pages_mul (len := len) hp1 hp2
    rw [Nat.zero_add, b3]
    generalize pages len (2 ^ b * 2 ^ d) = P at h1
    have h2 : P ≤ (P + 63) / 64 * 64 := by omega
    have h3 : P * 2 ^ d ≤ (P + 63) / 64 * 64 * 2 ^ d := Nat.mul_le_mul_right _ h2
    have h4 : (P + 63) / 64 * 64 * 2 ^ d = ((P + 63) / 64 * 2 ^ d) * 64 := by
      rw [Nat.mul_assoc, Nat.mul_comm 64, ← Nat.mul_assoc]
    have h5 : (P + 63) / 64 * 8 * 2 ^ d = ((P + 63) / 64 * 2 ^ d) * 8 := by
      rw [Nat.mul_assoc, Nat.mul_comm 8, ← Nat.mul_assoc]
    omega
  obtain ⟨srv', out, e1, e2, e3⟩ := combineLoop_spec (2 ^ d) buf.length hp2 h32
    ((pages len (2 ^ b) + 63) / 64 * 8) 0 srv buf (by omega) rfl hcs
  rw [Nat.mul_zero, Nat.zero_div] at e1
  have hgb : getBits c.dirtyPgsize (2 ^ b * 2 ^ d) ((pages len (2 ^ b) + 63) / 64 * 8) buf.length srv buf = .ok (srv', out) := by
    unfold getBits getCombine
    rw [hk, if_neg (by omega), if_neg (by omega), hfac, e1]
  rw [hgb] at hred
  refine ⟨_, out, hred, (getBits_len hgb).2, fun j => ?_, fun p hp => ?_, fun p hp => ?_, fun j p hj => ?_⟩
  · rw [e2, hz]
    simp only [Bool.false_eq_true, false_or, dirtyPage_iff a2 hdirty]
    constructor
    · rintro ⟨q, g1, g2, g3, g4⟩; exact ⟨q, by omega, g3, g4⟩
    · rintro ⟨q, g2, g3, g4⟩; exact ⟨q, by omega, by omega, g3, g4⟩
  · rw [dirtyPage_set a2, if_pos rfl, e3]
    have h1 := (lt_pages (len := len) hp1).mpr hp
    have : 0 ≤ p / 8 ∧ p / 8 < 0 + (pages len (2 ^ b) + 63) / 64 * 8 := ⟨Nat.zero_le _, by omega⟩
    rw [decide_eq_true this]
    simp
  · rw [dirtyPage_set a2, if_pos rfl, e3] at hp
    rw [dirtyPage_iff a2 hdirty]
    simp only [Bool.and_eq_true] at hp
    exact hp.1
  · rw [dirtyPage_set a2, if_neg hj]

theorem orBit_other {out out' : List Byte} {i p : Nat} {b : Byte} (h : orBit out i b = .ok out') (hp : p / 8 ≠ i / 8) :
    bit out' p = bit out p := by
  unfold orBit at h
  split at h
  · cases h
  · rename_i x hx
    cases h
    rw [bit_set (List.getElem?_eq_some_iff.mp hx).1, if_neg hp]

theorem combineByte_high (factor cs i : Nat) (v : Byte) : ∀ (n j cb : Nat) (out : List Byte) (cb' : Nat)
    (out' : List Byte) (b : Bool), cb < 256 → combineByte factor cs i v n j cb out = .ok (cb', out', b) →
    cb' < 256 ∧ ∀ p, 256 ≤ p → bit out' p = bit out p := by
  intro n
  induction n with
  | zero => intro j cb out cb' out' b h1 h; simp only [combineByte] at h; cases h; exact ⟨h1, fun _ _ => rfl⟩
  | succ n ih =>
    intro j cb out cb' out' b h1 h
    simp only [combineByte] at h
    split at h
    · rename_i out1 h2
      have ho : ∀ p, 256 ≤ p → bit out1 p = bit out p := fun p hp => orBit_other h2 (by omega)
      have hm : (cb + 1) % 256 < 256 := Nat.mod_lt _ (by decide)
      split at h
      · split at h
        · cases h; exact ⟨hm, ho⟩
        · obtain ⟨e1, e2⟩ := ih _ _ _ _ _ _ hm h
          exact ⟨e1, fun p hp => by rw [e2 p hp, ho p hp]⟩
      · obtain ⟨e1, e2⟩ := ih _ _ _ _ _ _ h1 h
        exact ⟨e1, fun p hp => by rw [e2 p hp, ho p hp]⟩
    · cases h
    · cases h

theorem combineLoop_high (factor cs : Nat) : ∀ (n i cb : Nat) (srv out srv' out' : List Byte), cb < 256 →
    combineLoop factor cs n i cb srv out = .ok (srv', out') → ∀ p, 256 ≤ p → bit out' p = bit out p := by
  intro n
  induction n with
  | zero => intro i cb srv out srv' out' h1 h p hp; simp only [combineLoop] at h; cases h; rfl
  | succ n ih =>
    intro i cb srv out srv' out' h1 h p hp
    simp only [combineLoop] at h
    split at h
    · cases h; rfl
    · split at h
      · cases h
      · split at h
        · rename_i h2
          cases h
          exact (combineByte_high _ _ _ _ _ _ _ _ _ _ _ h1 h2).2 p hp
        · rename_i h2
          obtain ⟨e1, e2⟩ := combineByte_high _ _ _ _ _ _ _ _ _ _ _ h1 h2
          rw [ih _ _ _ _ _ _ e1 h p hp, e2 p hp]
        · cases h
        · cases h

/-- With more than 32 bytes of reply bitmap, no client page from 256 on is ever reported, whatever is dirty. -/
theorem C15_lost (cfg : Cfg) (m s : Nat) (ops : List Op) (hs : s ≤ 2 ^ 62)
    (h : ∀ op ∈ ops, op.Bounded ∧ op.NoWrap) (hint i len cp : Nat) (r : Region) (buf : List Byte)
    (hcp : (run cfg (create m s) ops).1.dirtyPgsize < cp) (h0 : (run cfg (create m s) ops).1.dirtyPgsize ≠ 0)
    (hacc : Accepted (run cfg (create m s) ops).1 hint i len cp r buf) (c' : Ctl) (out : List Byte)
    (hq : dirtyPageGet (run cfg (create m s) ops).1 hint r.info.base len cp buf.length buf = (c', .done out))
    (j : Nat) (hj : 256 ≤ j) : bit out j = bit buf j := by
  generalize hc : (run cfg (create m s) ops).1 = c at *
  have hg : Good c := hc ▸ good_run cfg m s ops hs h
  obtain ⟨a1, a2, a3, a4, a5, a6⟩ := hacc
  have hmem := List.mem_of_getElem? a2
  have hsm := hg.small r hmem
  obtain ⟨srv, hdirty, hsl⟩ := srv_len hg a2 a3 h0 a4
  have hss := bitmapSize_small h0 a5 (by omega)
  by_cases hb : badClientPg cp = false
  · have hred := query_reduce (buf := buf) hg a1 a2 (by omega) a4 h0 hb hss a6 a3 hdirty
    rw [hq] at hred
    unfold getBits getCombine at hred
    rw [if_neg (by omega), if_neg (by omega)] at hred
    split at hred
    · rename_i srv' out' hx
      simp only [Prod.mk.injEq, GetOut.done.injEq] at hred
      obtain ⟨_, rfl⟩ := hred
      exact combineLoop_high _ _ _ _ _ _ _ _ _ (by decide) hx j hj
    · simp at hred
    · simp at hred
  · have ht := translate_one hg a1 a2 (by omega) (Nat.le_refl _) (show r.info.base + len ≤ _ by omega)
    unfold dirtyPageGet at hq
    rw [ht] at hq
    simp only [ne_eq, not_true_eq_false, or_self, if_false, h0] at hq
    simp only [Bool.not_eq_false] at hb
    simp [hb] at hq

/-! ## C18 -/

theorem getBitmapSize_nofault (l p : Nat) (f : Fault) : getBitmapSize l p ≠ .fault f := by
  unfold getBitmapSize; repeat' split
  all_goals simp


theorem bitmapSize_err {l p e : Nat} (h : getBitmapSize l p = .err e) : e = EINVAL := by
  unfold getBitmapSize at h
  repeat' split at h
  all_goals first | (cases h; rfl) | cases h

theorem addrToSgl_nofault {c : Ctl} {hint addr len max : Nat} {w : Bool} {f : Fault} (hh : hint < c.maxRegions)
    (hw : addr + len < U64) : (addrToSgl c hint addr len max w).1 ≠ .fault f := by
  intro h
  obtain ⟨_, _, _, _, _, ha⟩ := addrToSgl_spec c hint addr len max w hh hw
  rw [h] at ha
  exact ha

/-- C18: a query that is answered, or that gets as far as touching a bitmap, is for the beginning of one
file-backed region, at a power-of-two page size, with exactly the required buffer size, with logging on. -/
theorem C18_only (cfg : Cfg) (m s : Nat) (ops : List Op) (hs : s ≤ 2 ^ 62)
    (h : ∀ op ∈ ops, op.Bounded ∧ op.NoWrap) (hint addr len cp size : Nat) (buf : List Byte)
    (hh : hint < (run cfg (create m s) ops).1.maxRegions) (hw : addr + len < U64) (c' : Ctl) (o : GetOut)
    (hq : dirtyPageGet (run cfg (create m s) ops).1 hint addr len cp size buf = (c', o))
    (ho : (∃ bm, o = .done bm) ∨ ∃ f, o = .fault f) :
    let c := (run cfg (create m s) ops).1
    ∃ (i : Nat) (r : Region), c.regions[i]? = some r ∧ r.info.base = addr ∧ 0 < len ∧ len ≤ r.info.len ∧ r.fd ≠ none ∧
      c.dirtyPgsize ≠ 0 ∧ c.dirtyPgsize ≤ len ∧ (∃ k, cp = 2 ^ k) ∧ getBitmapSize len cp = .ok size := by
  have hg := good_run cfg m s ops hs h
  intro c
  change Good c at hg
  change hint < c.maxRegions at hh
  change dirtyPageGet c hint addr len cp size buf = (c', o) at hq
  clear_value c
  unfold dirtyPageGet at hq
  cases ht : (addrToSgl c hint addr len 1 false).1 with
  | err e => rw [ht] at hq; cases hq; simp at ho
  | fault f =>
    rw [ht] at hq; cases hq
    exact absurd ht (addrToSgl_nofault hh hw)
  | more n => rw [ht] at hq; cases hq; simp at ho
  | ok sgl =>
    rw [ht] at hq
    rcases translate_shape hh hw ht with ⟨sg, rfl⟩ | ⟨rfl, h0⟩
    · obtain ⟨r, t1, t2, t3, t4, t5, t6⟩ := translate_one_inv hg hh hw ht
      simp only at hq
      split at hq
      · cases hq; simp at ho
      · rename_i hn
        simp only [not_or, ne_eq, Classical.not_not] at hn
        split at hq
        · cases hq; simp at ho
        · rename_i hd
          split at hq
          · cases hq; simp at ho
          · rename_i hb
            simp only [Bool.not_eq_true] at hb
            have hlen : len ≤ 2 ^ 62 := by
              have := hg.small r (List.mem_of_getElem? t1)
              omega
            cases hss : getBitmapSize len c.dirtyPgsize with
            | err e => rw [hss] at hq; cases hq; simp at ho
            | fault f => exact absurd hss (getBitmapSize_nofault _ _ _)
            | ok ss =>
              rw [hss] at hq
              simp only at hq
              cases hcs : getBitmapSize len cp with
              | err e => rw [hcs] at hq; cases hq; simp at ho
              | fault f => exact absurd hcs (getBitmapSize_nofault _ _ _)
              | ok cs =>
                rw [hcs] at hq
                simp only at hq
                split at hq
                · cases hq; simp at ho
                · rename_i hsz
                  simp only [ne_eq, Classical.not_not] at hsz
                  subst hsz
                  rw [t1] at hq
                  simp only at hq
                  refine ⟨sg.region, r, t1, by omega, t4, by omega, ?_, hd, (bitmapSize_inv hss hlen).2.1,
                    (badClientPg_iff _).mp hb, rfl⟩
                  intro hfd
                  rw [hfd] at hq
                  simp only at hq
                  cases hq
                  simp at ho
    · simp only at hq
      cases hq
      simp at ho

/-- C18: such a query at the logging page size, or a coarser one with at most 32 bytes of bitmap, is answered. -/
theorem C18_if (cfg : Cfg) (m s : Nat) (ops : List Op) (hs : s ≤ 2 ^ 62)
    (h : ∀ op ∈ ops, op.Bounded ∧ op.NoWrap) (b d : Nat)
    (hk : (run cfg (create m s) ops).1.dirtyPgsize = 2 ^ b) (hint i len : Nat) (r : Region) (buf : List Byte)
    (hacc : Accepted (run cfg (create m s) ops).1 hint i len (2 ^ b * 2 ^ d) r buf) (h32 : buf.length ≤ 32) :
    ∃ c' out, dirtyPageGet (run cfg (create m s) ops).1 hint r.info.base len (2 ^ b * 2 ^ d) buf.length buf =
      (c', .done out) := by
  generalize hc : (run cfg (create m s) ops).1 = c at *
  have hg : Good c := hc ▸ good_run cfg m s ops hs h
  obtain ⟨a1, a2, a3, a4, a5, a6⟩ := hacc
  have hmem := List.mem_of_getElem? a2
  have hp1 := Nat.two_pow_pos b
  have hp2 := Nat.two_pow_pos d
  have hsm := hg.small r hmem
  have hsp : c.dirtyPgsize ≠ 0 := by rw [hk]; omega
  obtain ⟨srv, hdirty, hsl⟩ := srv_len hg a2 a3 hsp a4
  obtain ⟨_, b2, b3⟩ := bitmapSize_inv a6 (by omega)
  have hss := bitmapSize_small hsp a5 (by omega)
  rw [show pages len c.dirtyPgsize = pages len (2 ^ b) by rw [hk]] at hss
  have hred := query_reduce (buf := buf) hg a1 a2 (by omega) a4 hsp
    ((badClientPg_iff _).mpr ⟨b + d, (Nat.pow_add 2 b d).symm⟩) hss a6 a3 hdirty
  rw [hk] at hsl
  rcases Nat.eq_zero_or_pos d with rfl | hd
  · simp only [Nat.pow_zero, Nat.mul_one] at *
    obtain ⟨srv', out, e1, _⟩ := getSame_spec buf.length 0 srv buf (by omega) (by omega)
    unfold getBits at hred
    rw [if_pos hk.symm, e1] at hred
    exact ⟨_, _, hred⟩
  · have hlt : 2 ^ b < 2 ^ b * 2 ^ d := by
      have : 2 ≤ 2 ^ d := Nat.pow_le_pow_right (by decide : 0 < 2) hd
      calc 2 ^ b < 2 ^ b * 2 := by omega
        _ ≤ _ := Nat.mul_le_mul_left _ this
    have hfac : 2 ^ b * 2 ^ d / 2 ^ b = 2 ^ d := Nat.mul_div_cancel_left _ hp1
    have hcs : 0 + (pages len (2 ^ b) + 63) / 64 * 8 ≤ buf.length * 2 ^ d := by
      have h1 := pages_mul (len := len) hp1 hp2
      rw [Nat.zero_add, b3]
      generalize pages len (2 ^ b * 2 ^ d) = P at h1
      have h2 : P ≤ (P + 63) / 64 * 64 := by omega
      have h3 : P * 2 ^ d ≤ (P + 63) / 64 * 64 * 2 ^ d := Nat.mul_le_mul_right _ h2
      have h4 : (P + 63) / 64 * 64 * 2 ^ d = ((P + 63) / 64 * 2 ^ d) * 64 := by
        rw [Nat.mul_assoc, Nat.mul_comm 64, ← Nat.mul_assoc]
      have h5 : (P + 63) / 64 * 8 * 2 ^ d = ((P + 63) / 64 * 2 ^ d) * 8 := by
        rw [Nat.mul_assoc, Nat.mul_comm 8, ← Nat.mul_assoc]
      omega
    obtain ⟨srv', out, e1, _⟩ := combineLoop_spec (2 ^ d) buf.length hp2 h32
      ((pages len (2 ^ b) + 63) / 64 * 8) 0 srv buf (by omega) rfl hcs
    rw [Nat.mul_zero, Nat.zero_div] at e1
    unfold getBits getCombine at hred
    rw [hk, if_neg (by omega), if_neg (by omega), hfac, e1] at hred
    exact ⟨_, _, hred⟩

/-- C18: a query for a range in one region that misses one of the conditions is refused, with `ENOTSUP` when it does
not start where the region starts and with `EINVAL` otherwise, and changes nothing. -/
theorem C18_refused (cfg : Cfg) (m s : Nat) (ops : List Op) (hs : s ≤ 2 ^ 62)
    (h : ∀ op ∈ ops, op.Bounded ∧ op.NoWrap) (hint i addr len cp size : Nat) (r : Region) (buf : List Byte)
    (hh : hint < (run cfg (create m s) ops).1.maxRegions) (hr : (run cfg (create m s) ops).1.regions[i]? = some r)
    (hl : 0 < len) (h1 : r.info.base ≤ addr) (h2 : addr + len ≤ r.info.base + r.info.len)
    (hbad : addr ≠ r.info.base ∨ (run cfg (create m s) ops).1.dirtyPgsize = 0 ∨
      len < (run cfg (create m s) ops).1.dirtyPgsize ∨ (∀ k, cp ≠ 2 ^ k) ∨ getBitmapSize len cp ≠ .ok size ∨
      r.fd = none) :
    dirtyPageGet (run cfg (create m s) ops).1 hint addr len cp size buf =
      ((run cfg (create m s) ops).1, .err (if addr = r.info.base then EINVAL else ENOTSUP)) := by
  have hg := good_run cfg m s ops hs h
  generalize (run cfg (create m s) ops).1 = c at *
  have ht := translate_one hg hh hr hl h1 h2
  unfold dirtyPageGet
  rw [ht]
  dsimp only
  by_cases ha : addr = r.info.base
  · rw [if_neg (by simp [ha]), if_pos ha]
    by_cases hd : c.dirtyPgsize = 0
    · rw [if_pos hd]
    rw [if_neg hd]
    by_cases hp : badClientPg cp = true
    · rw [if_pos hp]
    rw [if_neg hp]
    have hk : ∃ k, cp = 2 ^ k := (badClientPg_iff _).mp (by simpa using hp)
    cases hss : getBitmapSize len c.dirtyPgsize with
    | err e => exact congrArg (fun e => (c, GetOut.err e)) (bitmapSize_err hss)
    | fault f => exact absurd hss (getBitmapSize_nofault _ _ _)
    | ok ss =>
      cases hcs : getBitmapSize len cp with
      | err e => exact congrArg (fun e => (c, GetOut.err e)) (bitmapSize_err hcs)
      | fault f => exact absurd hcs (getBitmapSize_nofault _ _ _)
      | ok cs =>
        dsimp only
        by_cases hz : size = cs
        · rw [if_neg (by simp [hz]), hr]
          have hlen : len ≤ 2 ^ 62 := by
            have := hg.small r (List.mem_of_getElem? hr)
            omega
          have hle := (bitmapSize_inv hss hlen).2.1
          have hf : r.fd = none := by
            rcases hbad with b | b | b | b | b | b
            · exact absurd ha b
            · exact absurd b hd
            · omega
            · exact absurd hk (by simpa using b)
            · exact absurd (by rw [hcs, hz]) b
            · exact b
          dsimp only
          rw [hf]
        · rw [if_pos hz]
  · rw [if_pos (.inl (fun e => ha e.symm)), if_neg ha]

/-- C18: a query that is not answered changes nothing (in any table whatever). -/
theorem C18_unanswered (c : Ctl) (hint addr len cp size : Nat) (buf : List Byte) (c' : Ctl) (o : GetOut)
    (hq : dirtyPageGet c hint addr len cp size buf = (c', o)) (ho : ∀ bm, o ≠ .done bm) : c' = c := by
  unfold dirtyPageGet at hq
  repeat' split at hq
  all_goals first
    | (cases hq; rfl)
    | (cases hq; exact absurd rfl (ho _))

/-! ## Concrete cases -/

theorem exists_fst {α β : Type} {f : α × β} {x : β} (h : f.2 = x) : ∃ c', f = (c', x) := ⟨f.1, Prod.ext rfl h⟩

/-- 48 file-backed pages with logging at 16 KiB, some written. -/
def hist6 : List Op :=
  [mapFd 0x10000 0x30000 0 4, .logStart (fun _ => true) 0x4000,
   .mark [⟨0x10000, 0, 1, 0x4000, true⟩, ⟨0x10000, 0, 2, 0xbfff, true⟩]]

theorem hist6_ok : ∀ op ∈ hist6, op.Bounded ∧ op.NoWrap := by
  intro op hop
  simp only [hist6, List.mem_cons, List.not_mem_nil, or_false] at hop
  rcases hop with rfl | rfl | rfl <;>
    simp [mapFd, Op.NoWrap, Op.Bounded, MapReq.Bounded, U64, U32]

/-- A finer query that meets all conditions (`C14_extend` with `a = 12`, `d = 2`). -/
example : ∃ r, Accepted (run cfg0 (create 64 0x80000000000) hist6).1 3 0 0x30000 (2 ^ 12) r (List.replicate 8 0#8) ∧
    (run cfg0 (create 64 0x80000000000) hist6).1.dirtyPgsize = 2 ^ 12 * 2 ^ 2 ∧
    ∃ c', dirtyPageGet (run cfg0 (create 64 0x80000000000) hist6).1 3 0x10000 0x30000 0x1000 8 (List.replicate 8 0#8) =
      (c', .done [0xf0#8, 0xff#8, 0#8, 0#8, 0#8, 0#8, 0#8, 0#8]) :=
  ⟨_, ⟨by decide, rfl, by decide, by decide, by decide, by decide⟩, by decide, exists_fst (by decide +kernel)⟩

/-- A coarser one (`C15_combine` with `b = 14`, `d = 1`). -/
example : ∃ r, Accepted (run cfg0 (create 64 0x80000000000) hist6).1 3 0 0x30000 (2 ^ 14 * 2 ^ 1) r (List.replicate 8 0#8) ∧
    (run cfg0 (create 64 0x80000000000) hist6).1.dirtyPgsize = 2 ^ 14 ∧
    ∃ c', dirtyPageGet (run cfg0 (create 64 0x80000000000) hist6).1 3 0x10000 0x30000 0x8000 8 (List.replicate 8 0#8) =
      (c', .done [0x03#8, 0#8, 0#8, 0#8, 0#8, 0#8, 0#8, 0#8]) :=
  ⟨_, ⟨by decide, rfl, by decide, by decide, by decide, by decide⟩, by decide, exists_fst (by decide +kernel)⟩

/-- A region without a file, which is not reported (`C18_refused`). -/
def hist7 : List Op :=
  [mapFd 0x100000 0x1000 0 4, .map os0 { flags := 3, offset := 0, addr := 0x101000, size := 0x1000, fds := [] },
   .logStart (fun _ => true) 0x1000]

example : (∀ op ∈ hist7, op.Bounded ∧ op.NoWrap) ∧
    ∃ r, (run cfg0 (create 64 0x80000000000) hist7).1.regions[1]? = some r ∧ r.fd = none ∧ r.info.base = 0x101000 ∧
      r.info.len = 0x1000 ∧
      (dirtyPageGet (run cfg0 (create 64 0x80000000000) hist7).1 0 0x101000 0x1000 0x1000 8 (List.replicate 8 0#8)).2 =
        .err EINVAL :=
  ⟨by
    intro op hop
    simp only [hist7, List.mem_cons, List.not_mem_nil, or_false] at hop
    rcases hop with rfl | rfl | rfl <;> simp [mapFd, Op.NoWrap, Op.Bounded, MapReq.Bounded, U64, U32],
   _, rfl, rfl, rfl, rfl, by decide +kernel⟩

/-- C14 fails for a region of 256 client pages: the loop over `uint8_t client_bit_idx` never ends. -/
theorem C14_diverges :
    (dirtyPageGet (run cfg0 (create 64 0x80000000000)
        [mapFd 0x10000 0x100000 0 4, .logStart (fun _ => true) 0x2000]).1
      0 0x10000 0x100000 0x1000 32 (List.replicate 32 0#8)).2 = .fault .diverge := by decide +kernel

/-- C14 fails for a region of eight 4 KiB client pages logged at 128 KiB: bytes behind the reply are written. -/
theorem C14_overflow :
    (dirtyPageGet (run cfg0 (create 64 0x80000000000)
        [mapFd 0x100000 0x20000 0 4, .logStart (fun _ => true) 0x10000]).1
      0 0x100000 0x20000 0x1000 8 (List.replicate 8 0#8)).2 = .fault .oob := by decide +kernel

/-- C15 fails for 257 client pages: the last one is reported as page 0. -/
theorem C15_violated :
    ∃ c', dirtyPageGet (run cfg0 (create 64 0x80000000000)
        [mapFd 0x100000 0x80800 0 4, .logStart (fun _ => true) 0x400, .mark [⟨0x100000, 0, 1, 0x80000, true⟩]]).1
      0 0x100000 0x80800 0x800 40 (List.replicate 40 0#8) = (c', .done (1#8 :: List.replicate 39 0#8)) :=
  exists_fst (by decide +kernel)

/-- C18: a range over two regions ends with a negative return value but `errno` 0, which the request layer sends as
success. -/
theorem C18_several :
    (dirtyPageGet (run cfg0 (create 64 0x80000000000)
        [mapFd 0x100000 0x1000 0 4, mapFd 0x101000 0x1000 0 5, .logStart (fun _ => true) 0x1000]).1
      0 0x100000 0x2000 0x1000 8 (List.replicate 8 0#8)).2 = .noErrno := by decide +kernel

/-- C18 needs `addr + len < 2^64`: a length that makes the sum wrap passes every check of the query, which then
reads and clears memory behind the region's bitmap. -/
theorem C18_wrap :
    (dirtyPageGet (run cfg0 (create 64 0x80000000000)
        [mapFd 0x100000 0x1000 0 4, .logStart (fun _ => true) 0x1000]).1
      0 0x100000 (2 ^ 64 - 0x100000) (2 ^ 63) 8 (List.replicate 8 0#8)).2 = .fault .oob := by decide +kernel

/-- A query for the first page only clears the dirty bits of the other pages, too (see C62). -/
theorem C12_part_loses :
    (∃ c', dirtyPageGet (run cfg0 (create 64 0x80000000000)
        [mapFd 0x100000 0x2000 0 4, .logStart (fun _ => true) 0x1000, .mark [⟨0x100000, 0, 1, 0x1000, true⟩]]).1
      0 0x100000 0x1000 0x1000 8 (List.replicate 8 0#8) = (c', .done (2#8 :: List.replicate 7 0#8)) ∧
      c'.regions.map (·.dirty) = [some (List.replicate 8 0#8)]) := ⟨_, rfl, by decide⟩

end Verif.Dma
