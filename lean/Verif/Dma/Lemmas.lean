import Verif.Dma.Spec

/-! # Lemmas on the table operations -/

namespace Verif.Dma
open Verif

/-- The part of a region that dirty logging never changes. -/
def Region.geom (r : Region) : Info × Option Fd × Nat := (r.info, r.fd, r.offset)

/-! ## scan -/

/-- The overlap test of `scan`. -/
def Clash (addr size : Nat) (r : Region) : Prop :=
  (addr ≥ r.info.base ∧ addr < r.end64) ∨ (r.info.base ≥ addr ∧ r.info.base < add64 addr size)

instance (addr size : Nat) (r : Region) : Decidable (Clash addr size r) := by
  unfold Clash; infer_instance

theorem scan_fresh_iff {os addr size fd offset prot} (rs : List Region) (idx : Nat) :
    scan os addr size fd offset prot idx rs = .fresh ↔
      ∀ r ∈ rs, ¬ (r.info.base = addr ∧ r.info.len = size) ∧ ¬ Clash addr size r := by
  induction rs generalizing idx with
  | nil => simp [scan]
  | cons r rs ih =>
    simp only [scan, List.mem_cons, forall_eq_or_imp, ← ih (idx + 1)]
    by_cases h : r.info.base = addr ∧ r.info.len = size
    · simp only [h, and_self, if_true, not_true_eq_false, false_and, iff_false]
      repeat' split
      all_goals simp
    · by_cases h2 : Clash addr size r
      · have h2' := h2
        unfold Clash at h2'
        simp [h, h2, h2']
      · have h2' := h2
        unfold Clash at h2'
        simp only [h, h2', if_false, h2, not_false_eq_true, true_and]

theorem scan_bad {os addr size fd offset prot} (rs : List Region) (idx e : Nat)
    (h : scan os addr size fd offset prot idx rs = .bad e) : e = EINVAL := by
  induction rs generalizing idx with
  | nil => simp [scan] at h
  | cons r rs ih =>
    simp only [scan] at h
    repeat' split at h
    all_goals first | exact ih _ h | (cases h; rfl) | cases h

theorem scan_same {os addr size fd offset prot} (rs : List Region) (idx k : Nat)
    (h : scan os addr size fd offset prot idx rs = .same k) :
    ∃ r, idx ≤ k ∧ rs[k - idx]? = some r ∧ r.info.base = addr ∧ r.info.len = size ∧
      r.offset = offset ∧ os.sameFile r.fd fd = true ∧ r.info.prot = prot ∧
      ∀ s ∈ rs.take (k - idx), ¬ Clash addr size s := by
  induction rs generalizing idx with
  | nil => simp [scan] at h
  | cons r rs ih =>
    simp only [scan] at h
    split at h
    · rename_i hk
      repeat' split at h
      all_goals try cases h
      rename_i h1 h2 h3
      refine ⟨r, Nat.le_refl _, by simp, hk.1, hk.2, by simpa using Eq.symm (by simpa using h1),
        by simpa using h2, by simpa using h3, by simp⟩
    · split at h
      · cases h
      · rename_i hc
        obtain ⟨s, h1, h2, h3⟩ := ih (idx + 1) h
        refine ⟨s, by omega, ?_, h3.1, h3.2.1, h3.2.2.1, h3.2.2.2.1, h3.2.2.2.2.1, ?_⟩
        · have : k - idx = (k - (idx + 1)) + 1 := by omega
          rw [this]; simpa using h2
        · have : k - idx = (k - (idx + 1)) + 1 := by omega
          rw [this]
          simp only [List.take_succ_cons, List.mem_cons, forall_eq_or_imp]
          exact ⟨hc, h3.2.2.2.2.2⟩

/-! ## addRegion -/

/-- The region that `addRegion` appends. -/
structure NewRegion (os : OS) (c : Ctl) (addr size : Nat) (fd : Option Fd) (offset : Nat)
    (prot : Prot) (r : Region) : Prop where
  hbase : r.info.base = addr
  hlen : r.info.len = size
  hprot : r.info.prot = prot
  hfd : r.fd = fd
  hoffset : r.offset = offset
  unmapped : fd = none → r.info.vaddr = 0 ∧ r.info.mapBase = 0 ∧ r.info.mapLen = 0 ∧ r.dirty = none
  mapped : ∀ x, fd = some x → ∃ ps, pageSizeFor os fd = .ok ps ∧ r.info.pageSize = ps ∧
    r.info.mapLen = roundUp size ps ∧
    os.mmap (roundUp size ps) (roundDown offset ps) = .ok r.info.mapBase ∧
    r.info.vaddr = add64 r.info.mapBase (offset - roundDown offset ps)
  nodirty : c.dirtyPgsize = 0 → r.dirty = none
  dirty : c.dirtyPgsize ≠ 0 → ∀ x, fd = some x →
    ∃ n, getBitmapSize size c.dirtyPgsize = .ok n ∧ r.dirty = some (List.replicate n 0#8)

theorem startOnRegion_ok {ca r p r'} (h : startOnRegion ca r p = .ok r') :
    ∃ n, getBitmapSize r.info.len p = .ok n ∧ r' = { r with dirty := some (List.replicate n 0#8) } ∧
      r.fd ≠ none := by
  unfold startOnRegion at h
  split at h
  · cases h
  · rename_i x hfd
    split at h
    · rename_i n hn
      split at h
      · cases h; exact ⟨n, hn, rfl, by simp [hfd]⟩
      · cases h
    · cases h
    · cases h

theorem startOnRegion_nofault {ca r p f} (hfd : r.fd ≠ none) : startOnRegion ca r p ≠ .fault f := by
  unfold startOnRegion
  split
  · contradiction
  · split
    · split <;> simp
    · simp
    · rename_i g hg
      unfold getBitmapSize at hg
      repeat' split at hg
      all_goals cases hg

theorem addRegion_cases (os : OS) (c : Ctl) (addr size : Nat) (fd : Option Fd) (offset : Nat)
    (prot : Prot) :
    (∃ e ev, addRegion os c addr size fd offset prot = (c, .err e, ev) ∧
        (ev = [] ∨ ∃ x, fd = some x ∧ ev = [.close x])) ∨
    (∃ idx r, addRegion os c addr size fd offset prot = (c, .ok idx, []) ∧
        c.regions[idx]? = some r ∧ r.info.base = addr ∧ r.info.len = size ∧ r.offset = offset ∧
        os.sameFile r.fd fd = true ∧ r.info.prot = prot) ∨
    (∃ r, addRegion os c addr size fd offset prot =
        ({ c with regions := c.regions ++ [r] }, .ok c.regions.length,
          if fd = none then [] else [.mmap r.info.mapBase r.info.mapLen]) ∧
        size ≤ c.maxSize ∧ c.regions.length ≠ c.maxRegions ∧
        (∀ s ∈ c.regions, ¬ (s.info.base = addr ∧ s.info.len = size) ∧ ¬ Clash addr size s) ∧
        NewRegion os c addr size fd offset prot r) := by
  unfold addRegion
  split
  · exact .inl ⟨_, _, rfl, .inl rfl⟩
  · rename_i hsz
    split
    · exact .inl ⟨_, _, rfl, .inl rfl⟩
    · rename_i k hk
      obtain ⟨r, h1, h2, h3, h4, h5, h6, h7, _⟩ := scan_same _ _ _ hk
      exact .inr (.inl ⟨k, r, rfl, by simpa using h2, h3, h4, h5, h6, h7⟩)
    · rename_i hfresh
      rw [scan_fresh_iff] at hfresh
      split
      · exact .inl ⟨_, _, rfl, .inl rfl⟩
      · rename_i hmax
        split
        · exact .inl ⟨_, _, rfl, .inl rfl⟩
        · rename_i f hf
          unfold pageSizeFor at hf
          repeat' split at hf
          all_goals cases hf
        · rename_i ps hps
          simp only
          cases fd with
          | none =>
            refine .inr (.inr ⟨_, rfl, by omega, hmax, hfresh, ?_⟩)
            constructor <;> simp
          | some x =>
            simp only
            by_cases hd : c.dirtyPgsize = 0
            · simp only [hd, ne_eq, not_true_eq_false, if_false]
              unfold mapRegion
              simp only
              split
              · exact .inl ⟨_, _, rfl, .inr ⟨x, rfl, rfl⟩⟩
              · rename_i r2 hm
                split at hm
                · cases hm
                · rename_i b hb
                  cases hm
                  refine .inr (.inr ⟨_, rfl, by omega, hmax, hfresh, ?_⟩)
                  constructor <;> simp [hps, hb, hd]
            · simp only [hd, ne_eq, not_false_eq_true, if_true]
              split
              · exact .inl ⟨_, _, rfl, .inl rfl⟩
              · rename_i f hf
                exact absurd hf (startOnRegion_nofault (by simp))
              · rename_i r1 hr1
                obtain ⟨n, hn, hr1', _⟩ := startOnRegion_ok hr1
                subst hr1'
                unfold mapRegion
                simp only
                split
                · exact .inl ⟨_, _, rfl, .inr ⟨x, rfl, rfl⟩⟩
                · rename_i r2 hm
                  split at hm
                  · cases hm
                  · rename_i b hb
                    cases hm
                    refine .inr (.inr ⟨_, rfl, by omega, hmax, hfresh, ?_⟩)
                    constructor <;> simp_all

/-! ## removal -/

theorem removeLoop_ok {u addr size} (rs rs' : List Region) (ev : List Ev)
    (h : removeLoop u addr size rs = .ok (rs', ev)) :
    ∃ l1 r l2, rs = l1 ++ r :: l2 ∧ rs' = l1 ++ l2 ∧ r.info.base = addr ∧ r.info.len = size ∧
      dropRegion u r = .ok ev ∧ ∀ s ∈ l1, ¬ (s.info.base = addr ∧ s.info.len = size) := by
  induction rs generalizing rs' with
  | nil => simp [removeLoop] at h
  | cons r rs ih =>
    simp only [removeLoop] at h
    split at h
    · rename_i hne
      split at h
      · rename_i rs1 ev1 h1
        cases h
        obtain ⟨l1, r', l2, e1, e2, e3, e4, e5, e6⟩ := ih _ h1
        refine ⟨r :: l1, r', l2, by simp [e1], by simp [e2], e3, e4, e5, ?_⟩
        simp only [List.mem_cons, forall_eq_or_imp]
        exact ⟨by intro ⟨a, b⟩; cases hne <;> contradiction, e6⟩
      · cases h
      · cases h
    · rename_i hne
      split at h
      · rename_i ev1 h1
        cases h
        refine ⟨[], r, rs, rfl, rfl, ?_, ?_, h1, by simp⟩
        · exact Classical.byContradiction fun hc => hne (.inl hc)
        · exact Classical.byContradiction fun hc => hne (.inr hc)
      · cases h
      · cases h

theorem removeLoop_err {u addr size} (rs : List Region) (e : Nat)
    (h : removeLoop u addr size rs = .err e) :
    e = ENOENT ∧ ∀ s ∈ rs, ¬ (s.info.base = addr ∧ s.info.len = size) := by
  induction rs with
  | nil => simp [removeLoop] at h; simp [h]
  | cons r rs ih =>
    simp only [removeLoop] at h
    split at h
    · rename_i hne
      split at h
      · cases h
      · rename_i e1 h1
        cases h
        refine ⟨(ih h1).1, ?_⟩
        simp only [List.mem_cons, forall_eq_or_imp]
        exact ⟨by intro ⟨a, b⟩; cases hne <;> contradiction, (ih h1).2⟩
      · cases h
    · split at h
      · cases h
      · rename_i e1 h1
        unfold dropRegion at h1
        simp only at h1
        repeat' split at h1
        all_goals cases h1
      · cases h

/-- The two `assert`s of the removal path hold for this region. -/
def Region.Consistent (r : Region) : Prop := r.info.vaddr ≠ 0 ↔ r.fd ≠ none

theorem dropRegion_ok {u r} (h : r.Consistent) :
    ∃ ev, dropRegion u r = .ok ev := by
  unfold Region.Consistent at h
  unfold dropRegion
  simp only
  split
  · rename_i hv
    split
    · rename_i hn; exact absurd hn (h.mp hv)
    · exact ⟨_, rfl⟩
  · rename_i hv
    split
    · exact ⟨_, rfl⟩
    · rename_i x hx
      exact absurd (h.mpr (by simp [hx])) hv

theorem removeLoop_nofault {u addr size} (rs : List Region) (hc : ∀ r ∈ rs, r.Consistent) (f : Fault) :
    removeLoop u addr size rs ≠ .fault f := by
  induction rs with
  | nil => simp [removeLoop]
  | cons r rs ih =>
    simp only [List.mem_cons, forall_eq_or_imp] at hc
    simp only [removeLoop]
    split
    · split
      · simp
      · simp
      · rename_i g hg
        intro he; cases he
        exact ih hc.2 hg
    · obtain ⟨ev, hev⟩ := dropRegion_ok (u := u) hc.1
      simp [hev]

theorem dropAll_ok {u} (rs : List Region) (hc : ∀ r ∈ rs, r.Consistent) :
    ∃ ev, dropAll u rs = .ok ev := by
  induction rs with
  | nil => exact ⟨_, rfl⟩
  | cons r rs ih =>
    simp only [List.mem_cons, forall_eq_or_imp] at hc
    obtain ⟨ev, hev⟩ := dropRegion_ok (u := u) hc.1
    obtain ⟨evs, hevs⟩ := ih hc.2
    exact ⟨ev ++ evs, by simp [dropAll, hev, hevs]⟩

/-! ## dirty logging leaves the geometry alone -/

theorem map_geom_set {rs : List Region} {i : Nat} {r r' : Region} (h : rs[i]? = some r)
    (hg : r'.geom = r.geom) : (rs.set i r').map Region.geom = rs.map Region.geom := by
  apply List.ext_getElem?
  intro j
  simp only [List.getElem?_map, List.getElem?_set]
  split
  · rename_i hij
    subst hij
    split
    · simp [h, hg]
    · rename_i hlt
      have := (List.getElem?_eq_some_iff.mp h).1
      omega
  · rfl

theorem markDirty_geom {p r sg r'} (h : markDirty p r sg = .ok r') : r'.geom = r.geom := by
  unfold markDirty at h
  split at h
  · cases h
  · simp only at h
    split at h
    · cases h; rfl
    · cases h
    · cases h

theorem sglMark_geom {sgl : List Sg} {c c' : Ctl} (h : sglMark c sgl = .ok c') :
    c'.regions.map Region.geom = c.regions.map Region.geom ∧ c'.maxRegions = c.maxRegions ∧
      c'.maxSize = c.maxSize ∧ c'.dirtyPgsize = c.dirtyPgsize := by
  induction sgl generalizing c with
  | nil => simp only [sglMark] at h; cases h; simp
  | cons sg sgl ih =>
    simp only [sglMark] at h
    split at h
    · cases h; simp
    · rename_i r hr
      split at h
      · split at h
        · rename_i r' hr'
          have := ih h
          rw [map_geom_set hr (markDirty_geom hr')] at this
          exact this
        · cases h
        · cases h
      · exact ih h

theorem startLoop_geom {ca p} (rs rs' : List Region) (i : Nat) (h : startLoop ca p i rs = .ok rs') :
    rs'.map Region.geom = rs.map Region.geom := by
  induction rs generalizing i rs' with
  | nil => simp only [startLoop] at h; cases h; rfl
  | cons r rs ih =>
    simp only [startLoop] at h
    split at h
    · split at h
      · rename_i rs1 h1
        cases h
        simp [ih _ _ h1]
      · cases h
      · cases h
    · split at h
      · rename_i r1 hr1
        obtain ⟨n, _, e, _⟩ := startOnRegion_ok hr1
        subst e
        split at h
        · rename_i rs1 h1
          cases h
          simp [ih _ _ h1, Region.geom]
        · cases h
        · cases h
      · cases h
      · cases h

theorem startLoop_nofault {ca p} (rs : List Region) (i : Nat) (f : Fault) :
    startLoop ca p i rs ≠ .fault f := by
  induction rs generalizing i with
  | nil => simp [startLoop]
  | cons r rs ih =>
    simp only [startLoop]
    split
    · split
      · simp
      · simp
      · rename_i g hg
        intro he; cases he; exact ih _ hg
    · rename_i x hx
      split
      · split
        · simp
        · simp
        · rename_i g hg
          intro he; cases he; exact ih _ hg
      · simp
      · rename_i g hg
        intro _
        exact startOnRegion_nofault (by simp [hx]) hg

theorem clearBitmaps_geom (n : Nat) (rs : List Region) :
    (clearBitmaps n rs).map Region.geom = rs.map Region.geom := by
  unfold clearBitmaps
  rw [List.map_append, List.map_map]
  have : (Region.geom ∘ fun r : Region => { r with dirty := none }) = Region.geom := by
    funext r; rfl
  rw [this, ← List.map_append, List.take_append_drop]

theorem loggingStart_geom (ca : Nat → Bool) (c : Ctl) (p : Nat) :
    (loggingStart ca c p).1.regions.map Region.geom = c.regions.map Region.geom ∧
    (loggingStart ca c p).1.maxRegions = c.maxRegions ∧
    (loggingStart ca c p).1.maxSize = c.maxSize := by
  unfold loggingStart
  split
  · simp
  · split
    · split <;> simp
    · split
      · rename_i rs h
        exact ⟨startLoop_geom _ _ _ h, rfl, rfl⟩
      · exact ⟨clearBitmaps_geom _ _, rfl, rfl⟩
      · simp

theorem loggingStart_nofault (ca : Nat → Bool) (c : Ctl) (p : Nat) :
    (loggingStart ca c p).2.isFault = false := by
  unfold loggingStart
  split
  · rfl
  · split
    · split <;> rfl
    · split
      · rfl
      · rfl
      · rename_i f h
        exact absurd h (startLoop_nofault _ _ _)

theorem loggingStop_geom (c : Ctl) :
    (loggingStop c).regions.map Region.geom = c.regions.map Region.geom ∧
    (loggingStop c).maxRegions = c.maxRegions ∧ (loggingStop c).maxSize = c.maxSize := by
  unfold loggingStop
  split
  · simp
  · refine ⟨?_, rfl, rfl⟩
    simp only [List.map_map]
    rfl

theorem dirtyPageGet_geom (c : Ctl) (hint addr len p s : Nat) (out : List Byte) :
    (dirtyPageGet c hint addr len p s out).1.regions.map Region.geom = c.regions.map Region.geom ∧
    (dirtyPageGet c hint addr len p s out).1.maxRegions = c.maxRegions ∧
    (dirtyPageGet c hint addr len p s out).1.maxSize = c.maxSize ∧
    (dirtyPageGet c hint addr len p s out).1.dirtyPgsize = c.dirtyPgsize := by
  unfold dirtyPageGet
  repeat' split
  all_goals try (exact ⟨rfl, rfl, rfl, rfl⟩)
  refine ⟨?_, rfl, rfl, rfl⟩
  apply map_geom_set
  · assumption
  · rfl

end Verif.Dma
