import Verif.Dma.DirtyGet
import Verif.Dma.Props3

/-! # Marks and queries on reachable tables -/

namespace Verif.Dma
open Verif

/-- Page `p` of region `i` is recorded as dirty. -/
def DirtyPage (c : Ctl) (i p : Nat) : Prop :=
  ∃ r bm, c.regions[i]? = some r ∧ r.dirty = some bm ∧ bit bm p = true

/-- The entry is a non-empty part of a file-backed region. -/
def ValidSg (c : Ctl) (sg : Sg) : Prop :=
  ∃ r, c.regions[sg.region]? = some r ∧ r.fd ≠ none ∧ 0 < sg.length ∧ sg.offset + sg.length ≤ r.info.len

/-- The entry was written and touches page `p` of region `i`. -/
def Writes (pg : Nat) (sg : Sg) (i p : Nat) : Prop :=
  sg.writeable = true ∧ sg.region = i ∧ Touches pg sg.offset sg.length p

/-- Number of pages of a range. -/
def pages (len pg : Nat) : Nat := (len + pg - 1) / pg

theorem pages_pos {len pg : Nat} (hp : 0 < pg) (hl : 0 < len) : 0 < pages len pg := by
  unfold pages
  exact Nat.div_pos (by omega) hp

/-- Regions are not absurdly large (the server's limit is 8 TiB). -/
def Small (c : Ctl) : Prop := ∀ r ∈ c.regions, r.info.len ≤ 2 ^ 62

theorem small_run (cfg : Cfg) (m s : Nat) (ops : List Op) (hs : s ≤ 2 ^ 62) :
    Small (run cfg (create m s) ops).1 := by
  intro r hr
  have h := (C01_limits cfg m s ops).2 r hr
  omega

theorem pages_le {len pg : Nat} (hp : 0 < pg) : pages len pg ≤ len := by
  unfold pages
  rcases Nat.eq_zero_or_pos len with h | h
  · subst h; rw [Nat.div_eq_of_lt (by omega)]; omega
  · rw [Nat.div_le_iff_le_mul_add_pred hp]
    have : len ≤ pg * len := Nat.le_mul_of_pos_left len hp
    omega

/-- `get_bitmap_size` on sizes that occur. -/
theorem bitmapSize_small {len pg : Nat} (hp : pg ≠ 0) (hle : pg ≤ len) (hs : len ≤ 2 ^ 62) :
    getBitmapSize len pg = .ok ((pages len pg + 63) / 64 * 8) := by
  have := pages_le (len := len) (pg := pg) (by omega)
  apply getBitmapSize_eq hp hle
  unfold pages at this
  have h62 : (2:Nat) ^ 62 + 63 < U64 := by decide
  omega

theorem bitmapSize_inv {len pg n : Nat} (h : getBitmapSize len pg = .ok n) (hs : len ≤ 2 ^ 62) :
    pg ≠ 0 ∧ pg ≤ len ∧ n = (pages len pg + 63) / 64 * 8 := by
  by_cases hp : pg = 0
  · subst hp; unfold getBitmapSize at h; simp at h
  · by_cases hlt : len < pg
    · rw [getBitmapSize_lt hp hlt] at h; cases h
    · refine ⟨hp, by omega, ?_⟩
      rw [bitmapSize_small hp (by omega) hs] at h
      cases h; rfl

/-! ## Marks -/

theorem markDirty_spec {r : Region} {bm : List Byte} {k : Nat} {sg : Sg} (hd : r.dirty = some bm)
    (hb : getBitmapSize r.info.len (2 ^ k) = .ok bm.length) (hs : r.info.len ≤ 2 ^ 62) (hl : 0 < sg.length)
    (he : sg.offset + sg.length ≤ r.info.len) :
    ∃ bm', markDirty (2 ^ k) r sg = .ok { r with dirty := some bm' } ∧ bm'.length = bm.length ∧
      ∀ p, bit bm' p = true ↔ bit bm p = true ∨ Touches (2 ^ k) sg.offset sg.length p := by
  obtain ⟨hp0, hple, hlen⟩ := bitmapSize_inv hb hs
  have hp : 0 < 2 ^ k := Nat.two_pow_pos k
  have hk : k ≤ 62 := by
    apply Nat.le_of_not_lt
    intro hk
    have : 2 ^ 63 ≤ 2 ^ k := Nat.pow_le_pow_right (by decide) hk
    omega
  have h63 : (2:Nat) ^ 62 + 2 ^ 62 < U64 := by decide
  have hend := pgEnd_pow2 (off := sg.offset) (len := sg.length) (k := k) (by omega) (by omega)
  have hends : (sg.offset + sg.length + 2 ^ k - 1) / 2 ^ k ≤ pages r.info.len (2 ^ k) := by
    unfold pages
    apply Nat.div_le_div_right
    omega
  have hbm : markEnd (pgEnd sg.offset sg.length (2 ^ k)) ≤ bm.length := by
    rw [hend]
    unfold markEnd
    split <;> omega
  have hlt : sg.offset / 2 ^ k < (sg.offset + sg.length + 2 ^ k - 1) / 2 ^ k := by
    rw [Nat.lt_div_iff_mul_lt hp]
    have := Nat.div_mul_le_self sg.offset (2 ^ k)
    rw [Nat.mul_comm] at this ⊢
    omega
  have hij : markIndex (pgStart sg.offset (2 ^ k)) ≤ markEnd (pgEnd sg.offset sg.length (2 ^ k)) := by
    rw [hend]
    unfold markIndex pgStart markEnd
    split <;> omega
  obtain ⟨bm', e1, e2, e3⟩ := markLoop_spec (pgStart sg.offset (2 ^ k)) (pgEnd sg.offset sg.length (2 ^ k))
    (markEnd (pgEnd sg.offset sg.length (2 ^ k)) - markIndex (pgStart sg.offset (2 ^ k)))
    (markIndex (pgStart sg.offset (2 ^ k))) bm (Nat.le_refl _) (by omega) (by omega)
  refine ⟨bm', ?_, e2, fun p => ?_⟩
  · unfold markDirty
    rw [hd]
    simp only
    rw [e1]
  · rw [e3 p, touches_iff hp hl]
    simp only [Bool.or_eq_true, decide_eq_true_eq]
    apply or_congr_right
    rw [hend]
    unfold markIndex pgStart markEnd
    split <;> omega

theorem dirtyPage_set {c : Ctl} {i : Nat} {r : Region} {bm' : List Byte} (hr : c.regions[i]? = some r) (j p : Nat) :
    DirtyPage { c with regions := c.regions.set i { r with dirty := some bm' } } j p ↔
      if j = i then bit bm' p = true else DirtyPage c j p := by
  have hi := (List.getElem?_eq_some_iff.mp hr).1
  unfold DirtyPage
  simp only [List.getElem?_set]
  by_cases h : j = i
  · subst h
    simp only [if_true, hi]
    constructor
    · rintro ⟨r1, b1, h1, h2, h3⟩
      cases h1; cases h2; exact h3
    · intro h; exact ⟨_, _, rfl, rfl, h⟩
  · have h' : ¬ i = j := fun e => h e.symm
    simp only [h, h', if_false]

/-- Marking a list of valid entries. -/
theorem sglMark_spec {k : Nat} : ∀ (sgl : List Sg) (c : Ctl), c.dirtyPgsize = 2 ^ k → LogInv c → Small c →
    (∀ sg ∈ sgl, ValidSg c sg) →
    ∃ c', sglMark c sgl = .ok c' ∧ c'.geoms = c.geoms ∧ c'.dirtyPgsize = c.dirtyPgsize ∧
      c'.maxRegions = c.maxRegions ∧
      ∀ i p, DirtyPage c' i p ↔ DirtyPage c i p ∨ ∃ sg ∈ sgl, Writes (2 ^ k) sg i p := by
  intro sgl
  induction sgl with
  | nil => intro c _ _ _ _; exact ⟨c, rfl, rfl, rfl, rfl, by simp⟩
  | cons sg sgl ih =>
    intro c hk hlog hsm hv
    obtain ⟨r, hr, hfd, hl, he⟩ := hv sg List.mem_cons_self
    have hmem := List.mem_of_getElem? hr
    have hpos : c.dirtyPgsize > 0 := by rw [hk]; exact Nat.two_pow_pos k
    obtain ⟨bm, hd, hb⟩ := (hlog r hmem).2.2 (by omega) hfd
    rw [hk] at hb
    by_cases hw : sg.writeable = true
    · obtain ⟨bm', m1, m2, m3⟩ := markDirty_spec (sg := sg) hd hb (hsm r hmem) hl he
      have hg : ({ c with regions := c.regions.set sg.region { r with dirty := some bm' } } : Ctl).geoms = c.geoms :=
        map_geom_set hr rfl
      have hlog' : LogInv { c with regions := c.regions.set sg.region { r with dirty := some bm' } } := by
        intro x hx
        rcases mem_set_of hx with hx | rfl
        · exact hlog x hx
        · exact regLog_set (hlog r hmem) hd m2
      have hsm' : Small { c with regions := c.regions.set sg.region { r with dirty := some bm' } } := by
        intro x hx
        rcases mem_set_of hx with hx | rfl
        · exact hsm x hx
        · exact hsm r hmem
      have hv' : ∀ s ∈ sgl, ValidSg { c with regions := c.regions.set sg.region { r with dirty := some bm' } } s := by
        intro s hs
        obtain ⟨r1, g1, g2, g3, g4⟩ := hv s (List.mem_cons_of_mem _ hs)
        unfold ValidSg
        simp only [List.getElem?_set]
        by_cases hi : sg.region = s.region
        · rw [← hi] at g1
          rw [hr] at g1; cases g1
          have := (List.getElem?_eq_some_iff.mp hr).1
          refine ⟨{ r with dirty := some bm' }, by simp only [hi, if_true]; rw [← hi]; simp only [this, if_true], hfd, g3, g4⟩
        · exact ⟨r1, by simp only [hi, if_false]; exact g1, g2, g3, g4⟩
      obtain ⟨c', e1, e2, e3, e3', e4⟩ :=
        ih { c with regions := c.regions.set sg.region { r with dirty := some bm' } } (by exact hk) hlog' hsm' hv'
      refine ⟨c', ?_, by rw [e2, hg], e3, e3', fun i p => ?_⟩
      · simp only [sglMark, hr, hw, hpos, and_self, if_true]
        rw [hk, m1]
        simp only
        rw [hk] at e1
        exact e1
      · rw [e4 i p, dirtyPage_set hr]
        simp only [List.mem_cons, exists_eq_or_imp, ← or_assoc]
        apply or_congr_left
        by_cases hi : i = sg.region
        · subst hi
          simp only [if_true, m3 p]
          have : DirtyPage c sg.region p ↔ bit bm p = true := by
            constructor
            · rintro ⟨r1, b1, h1, h2, h3⟩
              rw [hr] at h1; cases h1
              rw [hd] at h2; cases h2
              exact h3
            · intro h; exact ⟨r, bm, hr, hd, h⟩
          rw [this]
          apply or_congr_right
          unfold Writes
          simp [hw]
        · have : ¬ Writes (2 ^ k) sg i p := fun h => hi h.2.1.symm
          simp only [hi, if_false, this, or_false]
    · obtain ⟨c', e1, e2, e3, e3', e4⟩ := ih c hk hlog hsm (fun s hs => hv s (List.mem_cons_of_mem _ hs))
      refine ⟨c', ?_, e2, e3, e3', fun i p => ?_⟩
      · simp only [sglMark, hr, hw, Bool.false_eq_true, false_and, if_false]
        exact e1
      · rw [e4 i p]
        simp only [List.mem_cons, exists_eq_or_imp]
        have : ¬ Writes (2 ^ k) sg i p := fun h => hw h.1
        simp only [this, false_or]

/-! ## Queries -/

/-- What holds in every reachable table whose requests do not wrap. -/
structure Good (c : Ctl) : Prop where
  inv : Inv c
  log : LogInv c
  small : Small c
  fits : ∀ r ∈ c.regions, r.Fits

theorem good_run (cfg : Cfg) (m s : Nat) (ops : List Op) (hs : s ≤ 2 ^ 62)
    (h : ∀ op ∈ ops, op.Bounded ∧ op.NoWrap) : Good (run cfg (create m s) ops).1 :=
  ⟨inv_run cfg m s ops (fun op hop => (h op hop).2), logInv_run cfg m s ops, small_run cfg m s ops hs,
   fits_run cfg m s ops (fun op hop => (h op hop).1)⟩

theorem Good.nowrap {c : Ctl} (h : Good c) {i : Nat} {r : Region} (hr : c.regions[i]? = some r) : r.NoWrap :=
  h.inv.nowrap r.geom (List.mem_map_of_mem (List.mem_of_getElem? hr))

/-- Translating a range inside one region, reading. -/
theorem translate_one {c : Ctl} (hg : Good c) {hint i addr len : Nat} {r : Region} (hh : hint < c.maxRegions)
    (hr : c.regions[i]? = some r) (hl : 0 < len) (h1 : r.info.base ≤ addr)
    (h2 : addr + len ≤ r.info.base + r.info.len) :
    (addrToSgl c hint addr len 1 false).1 = .ok [⟨r.info.base, i, len, addr - r.info.base, false⟩] := by
  have hnw := hg.nowrap hr
  unfold Region.NoWrap at hnw
  have he : r.end64 = r.info.base + r.info.len := Nat.mod_eq_of_lt hnw
  have hw : addr + len < U64 := by omega
  obtain ⟨ps, a', l', w, st, ha⟩ := addrToSgl_spec c hint addr len 1 false hh hw
  have w2 : Walk c.regions addr len [⟨i, r, addr, len⟩] (addr + len) 0 := by
    refine .cons ⟨i, r, addr, len⟩ len [] _ _ hr ⟨h1, by rw [he]; show addr < _; omega⟩ hl ?_ ?_
    · simp only [he]; omega
    · simp only [Nat.sub_self]; exact .nil _ _
  obtain ⟨rfl, rfl, rfl⟩ := w.unique (hitOnce_of (noshare_of_sep hg.inv.sep) hg.fits) st w2 (.inl rfl)
  refine answer_det ha ?_
  simp only [answer]
  refine ⟨?_, trivial, by simp, by simp [Piece.sg]⟩
  intro p _ hb
  cases hb.1

/-- Conversely, one entry means one region contains the range. -/
theorem translate_one_inv {c : Ctl} (hg : Good c) {hint addr len : Nat} {sg : Sg} (hh : hint < c.maxRegions)
    (hw : addr + len < U64) (h : (addrToSgl c hint addr len 1 false).1 = .ok [sg]) :
    ∃ r, c.regions[sg.region]? = some r ∧ sg.dmaAddr = r.info.base ∧ sg.length = len ∧ 0 < len ∧
      addr = r.info.base + sg.offset ∧ addr + len ≤ r.info.base + r.info.len := by
  obtain ⟨ps, a', l', w, st, ha⟩ := addrToSgl_spec c hint addr len 1 false hh hw
  rw [h] at ha
  simp only [answer] at ha
  obtain ⟨hb, h0, hle, hps⟩ := ha
  rw [List.take_of_length_le hle] at hb
  have ht := w.tiles h0 hg.fits hb
  rw [← hps] at ht
  cases ht with
  | cons _ _ r _ g1 g2 g3 g4 g5 g6 g7 g8 g9 =>
    have : len - sg.length = 0 := by
      generalize len - sg.length = x at g9
      generalize r.info.base + sg.offset + sg.length = y at g9
      cases g9; rfl
    exact ⟨r, g1, g2, by omega, by omega, rfl, by omega⟩

/-- A translation with room for one entry returns one entry, or none for an empty range. -/
theorem translate_shape {c : Ctl} {hint addr len : Nat} {sgl : List Sg} (hh : hint < c.maxRegions)
    (hw : addr + len < U64) (h : (addrToSgl c hint addr len 1 false).1 = .ok sgl) :
    (∃ sg, sgl = [sg]) ∨ (sgl = [] ∧ len = 0) := by
  obtain ⟨ps, a', l', w, st, ha⟩ := addrToSgl_spec c hint addr len 1 false hh hw
  rw [h] at ha
  simp only [answer] at ha
  obtain ⟨hb, h0, hle, rfl⟩ := ha
  match ps, hle with
  | [], _ =>
    have := w.le
    cases w
    exact .inr ⟨rfl, by omega⟩
  | [p], _ => exact .inl ⟨_, rfl⟩

theorem pow2_of_and {p : Nat} : p ≠ 0 → p &&& (p - 1) = 0 → ∃ k, p = 2 ^ k := by
  induction p using Nat.strongRecOn with
  | _ p ih =>
    intro h0 h
    by_cases hodd : p % 2 = 1
    · have h2 : (p &&& (p - 1)) / 2 = 0 := by rw [h]
      rw [Nat.and_div_two, show (p - 1) / 2 = p / 2 by omega, Nat.and_self] at h2
      exact ⟨0, by omega⟩
    · have h2 : (p &&& (p - 1)) / 2 = 0 := by rw [h]
      rw [Nat.and_div_two, show (p - 1) / 2 = p / 2 - 1 by omega] at h2
      obtain ⟨k, hk⟩ := ih (p / 2) (by omega) (by omega) h2
      exact ⟨k + 1, by rw [Nat.pow_succ]; omega⟩

theorem badClientPg_iff (p : Nat) : badClientPg p = false ↔ ∃ k, p = 2 ^ k := by
  unfold badClientPg
  simp only [Bool.or_eq_false_iff, beq_eq_false_iff_ne, ne_eq, bne_eq_false_iff_eq]
  constructor
  · rintro ⟨h0, h⟩; exact pow2_of_and h0 h
  · rintro ⟨k, rfl⟩
    have := Nat.two_pow_pos k
    refine ⟨by omega, ?_⟩
    rw [Nat.and_two_pow_sub_one_eq_mod, Nat.mod_self]

/-- A query that passes all checks comes down to `getBits`. -/
theorem query_reduce {c : Ctl} (hg : Good c) {hint i len cp ss size : Nat} {r : Region} {srv buf : List Byte}
    (hh : hint < c.maxRegions) (hr : c.regions[i]? = some r) (hl : 0 < len) (hle : len ≤ r.info.len)
    (hd : c.dirtyPgsize ≠ 0) (hcp : badClientPg cp = false) (hss : getBitmapSize len c.dirtyPgsize = .ok ss)
    (hcs : getBitmapSize len cp = .ok size) (hfd : r.fd ≠ none) (hsrv : r.dirty = some srv) :
    dirtyPageGet c hint r.info.base len cp size buf =
      match getBits c.dirtyPgsize cp ss size srv buf with
      | .ok (srv', out') =>
        ({ c with regions := c.regions.set i { r with dirty := some srv' } }, .done out')
      | .err e => (c, .err e)
      | .fault f => (c, .fault f) := by
  have ht := translate_one hg hh hr hl (Nat.le_refl _) (by omega)
  unfold dirtyPageGet
  rw [ht]
  obtain ⟨x, hx⟩ := Option.ne_none_iff_exists'.mp hfd
  simp only [ne_eq, not_true_eq_false, or_self, if_false, hd, hcp, hss, hcs, hr, hx, hsrv, Bool.false_eq_true]
  cases getBits c.dirtyPgsize cp ss size srv buf <;> rfl

end Verif.Dma
