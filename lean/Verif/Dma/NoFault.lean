import Verif.Dma.Props5

/-! # Requests on the DMA table that end normally -/

namespace Verif.Dma
open Verif

theorem orBit_ok {out : List Byte} {idx : Nat} (h : idx / 8 < out.length) (b : Byte) :
    ∃ out', orBit out idx b = .ok out' ∧ out'.length = out.length := by
  unfold orBit
  rw [List.getElem?_eq_getElem h]
  exact ⟨_, rfl, List.length_set ..⟩

theorem combineByte_nofault (factor cs i : Nat) (v : Byte) : ∀ (n j cb : Nat) (out : List Byte), cb / 8 < cs →
    out.length = cs → ∃ cb' out' b, combineByte factor cs i v n j cb out = .ok (cb', out', b) ∧ out'.length = cs ∧
      (b = false → cb' / 8 < cs) := by
  intro n
  induction n with
  | zero => intro j cb out h1 h2; exact ⟨cb, out, false, rfl, h2, fun _ => h1⟩
  | succ n ih =>
    intro j cb out h1 h2
    simp only [combineByte]
    obtain ⟨out', e1, e2⟩ := orBit_ok (by rw [h2]; exact h1) (serverBit v j)
    rw [e1]
    dsimp only
    by_cases hl : (i * 8 + j) % factor = factor - 1
    · rw [if_pos hl]
      by_cases hs : (cb + 1) % 256 / 8 ≥ cs
      · rw [if_pos hs]; exact ⟨_, _, _, rfl, by omega, by simp⟩
      · rw [if_neg hs]; exact ih _ _ _ (by omega) (by omega)
    · rw [if_neg hl]; exact ih _ _ _ h1 (by omega)

theorem combineLoop_nofault (factor cs : Nat) : ∀ (n i cb : Nat) (srv out : List Byte), i + n ≤ srv.length →
    out.length = cs → ∃ srv' out', combineLoop factor cs n i cb srv out = .ok (srv', out') := by
  intro n
  induction n with
  | zero => intro i cb srv out _ _; exact ⟨srv, out, rfl⟩
  | succ n ih =>
    intro i cb srv out h1 h2
    simp only [combineLoop]
    by_cases hc : cb / 8 ≥ cs
    · rw [if_pos hc]; exact ⟨_, _, rfl⟩
    · rw [if_neg hc, List.getElem?_eq_getElem (by omega)]
      dsimp only
      obtain ⟨cb', out', b, e1, e2, e3⟩ := combineByte_nofault factor cs i (exchange srv[i]).1 8 0 cb out (by omega) h2
      rw [e1]
      cases b with
      | true => exact ⟨_, _, rfl⟩
      | false => exact ih _ _ _ _ (by rw [List.length_set]; omega) e2

theorem getBits_nofault {pg cp size n : Nat} {srv buf : List Byte} (hcp : pg ≤ cp) (hb : buf.length = size)
    (h1 : n ≤ srv.length) (h2 : cp = pg → size ≤ srv.length) : ∃ x, getBits pg cp n size srv buf = .ok x := by
  unfold getBits
  by_cases he : cp = pg
  · rw [if_pos he]
    obtain ⟨srv', out, e1, _⟩ := getSame_spec size 0 srv buf (by have := h2 he; omega) (by omega)
    exact ⟨_, e1⟩
  · rw [if_neg he, if_neg (by omega)]
    unfold getCombine
    obtain ⟨srv', out', e1⟩ := combineLoop_nofault (cp / pg) size n 0 0 srv buf (by omega) hb
    exact ⟨_, e1⟩

/-- What a dirty page query relies on; client mappings may wrap around the address space. -/
structure Sound (c : Ctl) : Prop where
  log : LogInv c
  small : Small c
  fits : ∀ r ∈ c.regions, r.Fits

theorem sound_run (cfg : Cfg) (m s : Nat) (ops : List Op) (hs : s ≤ 2 ^ 62) (h : ∀ op ∈ ops, op.Bounded) :
    Sound (run cfg (create m s) ops).1 :=
  ⟨logInv_run cfg m s ops, small_run cfg m s ops hs, fits_run cfg m s ops h⟩

/-- As `translate_one_inv`, without the assumption that mappings do not wrap around. -/
theorem translate_one_fits {c : Ctl} (hf : ∀ r ∈ c.regions, r.Fits) {hint addr len : Nat} {sg : Sg} (hh : hint < c.maxRegions)
    (hw : addr + len < U64) (h : (addrToSgl c hint addr len 1 false).1 = .ok [sg]) :
    ∃ r, c.regions[sg.region]? = some r ∧ sg.dmaAddr = r.info.base ∧ sg.length = len ∧ 0 < len ∧
      addr = r.info.base + sg.offset ∧ addr + len ≤ r.info.base + r.info.len := by
  obtain ⟨ps, a', l', w, st, ha⟩ := addrToSgl_spec c hint addr len 1 false hh hw
  rw [h] at ha
  simp only [answer] at ha
  obtain ⟨hb, h0, hle, hps⟩ := ha
  rw [List.take_of_length_le hle] at hb
  have ht := w.tiles h0 hf hb
  rw [← hps] at ht
  cases ht with
  | cons _ _ r _ g1 g2 g3 g4 g5 g6 g7 g8 g9 =>
    have : len - sg.length = 0 := by
      generalize len - sg.length = x at g9
      generalize r.info.base + sg.offset + sg.length = y at g9
      cases g9; rfl
    exact ⟨r, g1, g2, by omega, by omega, rfl, by omega⟩

/-- A dirty page query for a range that does not wrap around, at the logging page size or a coarser one, ends
normally. -/
theorem dirtyPageGet_nofault {c : Ctl} (hs : Sound c) {hint addr len cp size : Nat} {buf : List Byte}
    (hh : hint < c.maxRegions) (hw : addr + len < U64) (hb : buf.length = size) (hcp : c.dirtyPgsize ≤ cp) (f : Fault) :
    (dirtyPageGet c hint addr len cp size buf).2 ≠ .fault f := by
  unfold dirtyPageGet
  cases ht : (addrToSgl c hint addr len 1 false).1 with
  | err e => simp
  | fault g => exact absurd ht (addrToSgl_nofault hh hw)
  | more n => simp
  | ok sgl =>
    rcases translate_shape hh hw ht with ⟨sg, rfl⟩ | ⟨rfl, h0⟩
    swap
    · simp
    obtain ⟨r, t1, t2, t3, t4, t5, t6⟩ := translate_one_fits hs.fits hh hw ht
    have hm := List.mem_of_getElem? t1
    have hsm := hs.small r hm
    dsimp only
    by_cases h1 : sg.dmaAddr ≠ addr ∨ sg.length ≠ len
    · rw [if_pos h1]; simp
    rw [if_neg h1]
    by_cases h2 : c.dirtyPgsize = 0
    · rw [if_pos h2]; simp
    rw [if_neg h2]
    by_cases h3 : badClientPg cp = true
    · rw [if_pos h3]; simp
    rw [if_neg h3]
    cases hss : getBitmapSize len c.dirtyPgsize with
    | err e => simp
    | fault g => exact absurd hss (getBitmapSize_nofault _ _ _)
    | ok ss =>
      dsimp only
      cases hcs : getBitmapSize len cp with
      | err e => simp
      | fault g => exact absurd hcs (getBitmapSize_nofault _ _ _)
      | ok cs =>
        dsimp only
        by_cases h4 : size ≠ cs
        · rw [if_pos h4]; simp
        rw [if_neg h4, t1]
        dsimp only
        have h4 : size = cs := by omega
        cases hfd : r.fd with
        | none => simp
        | some x =>
          obtain ⟨srv, hd, hsb⟩ := (hs.log r hm).2.2 h2 (by rw [hfd]; simp)
          rw [hd]
          dsimp only
          obtain ⟨_, b2, b3⟩ := bitmapSize_inv hsb hsm
          obtain ⟨_, c2, c3⟩ := bitmapSize_inv hss (by omega)
          obtain ⟨_, d2, d3⟩ := bitmapSize_inv hcs (by omega)
          have hle : pages len c.dirtyPgsize ≤ pages r.info.len c.dirtyPgsize := by
            unfold pages; exact Nat.div_le_div_right (by omega)
          have := ceil64_mono hle
          obtain ⟨y, hy⟩ := getBits_nofault (n := ss) (srv := srv) hcp (hb.trans h4) (by omega)
            (fun e => by rw [e] at d3; omega)
          rw [hy]
          simp

/-! ## Marking -/

theorem markLoop_nofault (pgs pge : Nat) : ∀ (n i : Nat) (bm : List Byte), i + n ≤ bm.length →
    ∃ bm', markLoop pgs pge n i bm = .ok bm' ∧ bm'.length = bm.length := by
  intro n
  induction n with
  | zero => intro i bm _; exact ⟨bm, rfl, rfl⟩
  | succ n ih =>
    intro i bm h
    simp only [markLoop]
    rw [List.getElem?_eq_getElem (by omega)]
    obtain ⟨bm', h1, h2⟩ := ih (i + 1) (bm.set i (bm[i] ||| markMask pgs pge i)) (by rw [List.length_set]; omega)
    exact ⟨bm', h1, by rw [h2, List.length_set]⟩

theorem roundUp_le (x a : Nat) : roundUp x a ≤ x + a - 1 := by
  unfold roundUp roundDown
  exact Nat.le_trans Nat.and_le_left (Nat.mod_le _ _)

/-- Marking inside a region stays inside its bitmap, whatever page size the client chose. -/
theorem markDirty_nofault {pg : Nat} {r : Region} {bm : List Byte} {sg : Sg} (hd : r.dirty = some bm)
    (hb : getBitmapSize r.info.len pg = .ok bm.length) (hs : r.info.len ≤ 2 ^ 62)
    (he : sg.offset + sg.length ≤ r.info.len) :
    ∃ bm', markDirty pg r sg = .ok { r with dirty := some bm' } ∧ bm'.length = bm.length := by
  obtain ⟨hp0, hple, hlen⟩ := bitmapSize_inv hb hs
  have h63 : (2:Nat) ^ 62 < U64 := by decide
  have hadd : add64 sg.offset sg.length = sg.offset + sg.length := Nat.mod_eq_of_lt (by omega)
  have hend : pgEnd sg.offset sg.length pg ≤ pages r.info.len pg := by
    unfold pgEnd pages
    rw [hadd]
    exact Nat.div_le_div_right (Nat.le_trans (roundUp_le _ _) (by omega))
  have hpp := pages_pos (len := r.info.len) (pg := pg) (by omega) (by omega)
  have hst : pgStart sg.offset pg ≤ pages r.info.len pg := by
    unfold pgStart pages
    exact Nat.div_le_div_right (by omega)
  have hbm : markIndex (pgStart sg.offset pg) + (markEnd (pgEnd sg.offset sg.length pg) - markIndex (pgStart sg.offset pg)) ≤
      bm.length := by
    unfold markEnd markIndex
    split <;> omega
  obtain ⟨bm', h1, h2⟩ := markLoop_nofault (pgStart sg.offset pg) (pgEnd sg.offset sg.length pg) _ _ bm hbm
  refine ⟨bm', ?_, h2⟩
  unfold markDirty
  rw [hd]
  dsimp only
  rw [h1]

/-- Marking pages of file-backed regions ends normally. -/
theorem sglMark_nofault : ∀ (sgl : List Sg) (c : Ctl), LogInv c → Small c →
    (∀ sg ∈ sgl, sg.writeable = true → ∀ r, c.regions[sg.region]? = some r →
      r.fd ≠ none ∧ sg.offset + sg.length ≤ r.info.len) → ∃ c', sglMark c sgl = .ok c' := by
  intro sgl
  induction sgl with
  | nil => intro c _ _ _; exact ⟨c, rfl⟩
  | cons sg sgl ih =>
    intro c hlog hsm hv
    simp only [sglMark]
    cases hr : c.regions[sg.region]? with
    | none => exact ⟨c, rfl⟩
    | some r =>
      dsimp only
      by_cases hw : sg.writeable = true ∧ c.dirtyPgsize > 0
      · rw [if_pos hw]
        obtain ⟨hfd, hle⟩ := hv sg List.mem_cons_self hw.1 r hr
        have hmem := List.mem_of_getElem? hr
        obtain ⟨bm, hd, hb⟩ := (hlog r hmem).2.2 (by omega) hfd
        obtain ⟨bm', e1, e2⟩ := markDirty_nofault hd hb (hsm r hmem) hle
        rw [e1]
        dsimp only
        have hi := (List.getElem?_eq_some_iff.mp hr).1
        refine ih _ ?_ ?_ ?_
        · intro x hx
          rcases List.mem_or_eq_of_mem_set hx with h | rfl
          · exact hlog x h
          · exact regLog_set (hlog r hmem) hd e2
        · intro x hx
          rcases List.mem_or_eq_of_mem_set hx with h | rfl
          · exact hsm x h
          · exact hsm r hmem
        · intro s hs hsw x hx
          simp only [List.getElem?_set] at hx
          by_cases hj : sg.region = s.region
          · rw [if_pos hj, if_pos hi] at hx
            cases hx
            exact hv s (List.mem_cons_of_mem _ hs) hsw r (hj ▸ hr)
          · rw [if_neg hj] at hx
            exact hv s (List.mem_cons_of_mem _ hs) hsw x hx
      · rw [if_neg hw]
        exact ih c hlog hsm (fun s hs => hv s (List.mem_cons_of_mem _ hs))

theorem handleMap_nofault (os : OS) (hasReg : Bool) (c : Ctl) (q : MapReq) : (handleMap os hasReg c q).res.isFault = false := by
  have h := handleMap_case os hasReg c q
  generalize handleMap os hasReg c q = o at h
  cases h <;> rfl

/-- An unmap request ends normally, unless it asks for dirty pages and that query does not. -/
theorem handleUnmap_nofault (m u : Bool) {c : Ctl} (hc : ∀ r ∈ c.regions, r.Consistent) (addr size : Nat) (k : UnmapKind)
    (hk : ∀ pg bs buf hint, k = .getDirty pg bs buf hint → ∀ f, (dirtyPageGet c hint addr size pg bs buf).2 ≠ .fault f)
    (f : Fault) : (handleUnmap m u c addr size k).2.1 ≠ .fault f := by
  intro hf
  have h := handleUnmap_case m u c addr size k
  cases k with
  | all =>
    generalize handleUnmap m u c addr size .all = o at h hf
    cases h with
    | removed c1 l1 l2 r b hk => exact hk rfl
    | cleared _ => cases hf
    | enoent => cases hf
    | nomem => cases hf
    | dirtyFail c1 _ _ _ _ _ h1 => cases h1
    | assert c1 g h1 => obtain ⟨r, hr, hn⟩ := h1; exact hn (hc r hr)
  | plain =>
    generalize handleUnmap m u c addr size .plain = o at h hf
    cases h with
    | removed c1 l1 l2 r b hk => cases hf
    | cleared h1 => cases h1
    | enoent => cases hf
    | nomem => cases hf
    | dirtyFail c1 _ _ _ _ _ h1 => cases h1
    | assert c1 g h1 => obtain ⟨r, hr, hn⟩ := h1; exact hn (hc r hr)
  | getDirty pg bs buf hint =>
    have hk := hk pg bs buf hint rfl
    cases m with
    | false => simp [handleUnmap] at hf
    | true =>
      have hg := dirtyPageGet_geom c hint addr size pg bs buf
      simp only [handleUnmap, Bool.true_eq_false, if_false] at hf
      generalize dirtyPageGet c hint addr size pg bs buf = o at hg hf hk
      obtain ⟨c1, o⟩ := o
      obtain ⟨h1, h2, h3, h4⟩ := hg
      have hc1 : ∀ r ∈ c1.regions, r.Consistent :=
        forall_of_geoms h1.symm (P := Region.Consistent) (fun r s he => (consistent_geom he).1) hc
      have tail : ∀ b, (unmapTail u c1 addr size b).2.1 ≠ .fault f := by
        intro b hb
        unfold unmapTail removeRegion at hb
        cases hr : removeLoop u addr size c1.regions with
        | ok x => rw [hr] at hb; cases hb
        | err e => rw [hr] at hb; cases hb
        | fault g => exact removeLoop_nofault _ hc1 g hr
      cases o with
      | done bm => exact tail _ hf
      | ret0 => exact tail _ hf
      | noErrno => cases hf
      | err e => cases hf
      | fault g => exact hk g rfl

end Verif.Dma
