import Verif.Dma.Conc

/-!
# C16, C17, C19: switching logging on and off, bitmap sizes, saturating additions
-/

namespace Verif.Dma
open Verif

/-! ## C16 -/

/-- A zeroed bitmap of the required size on file-backed regions, nothing on others; all else as before. -/
def Enabled (pg : Nat) (r r' : Region) : Prop :=
  (r.fd = none → r' = r) ∧
  (r.fd ≠ none → ∃ n, getBitmapSize r.info.len pg = .ok n ∧ r' = { r with dirty := some (List.replicate n 0#8) })

theorem startLoop_enabled {ca pg} : ∀ (rs rs' : List Region) (j : Nat), startLoop ca pg j rs = .ok rs' →
    rs'.length = rs.length ∧ ∀ (i : Nat) (r : Region), rs[i]? = some r → ∃ r', rs'[i]? = some r' ∧ Enabled pg r r' := by
  intro rs
  induction rs with
  | nil => intro rs' j h; simp only [startLoop] at h; cases h; simp
  | cons r rs ih =>
    intro rs' j h
    simp only [startLoop] at h
    cases hfd : r.fd with
    | none =>
      rw [hfd] at h
      simp only at h
      split at h
      · rename_i rs1 h1
        cases h
        obtain ⟨e1, e2⟩ := ih _ _ h1
        refine ⟨by simp [e1], fun i x hx => ?_⟩
        cases i with
        | zero =>
          simp only [List.getElem?_cons_zero, Option.some.injEq] at hx
          subst hx
          exact ⟨r, by simp, ⟨fun _ => rfl, fun h => absurd hfd h⟩⟩
        | succ i => simpa using e2 i x (by simpa using hx)
      · cases h
      · cases h
    | some y =>
      rw [hfd] at h
      simp only at h
      split at h
      · rename_i r1 hr1
        obtain ⟨n, hn, e, _⟩ := startOnRegion_ok hr1
        split at h
        · rename_i rs1 h1
          cases h
          obtain ⟨e1, e2⟩ := ih _ _ h1
          refine ⟨by simp [e1], fun i x hx => ?_⟩
          cases i with
          | zero =>
            simp only [List.getElem?_cons_zero, Option.some.injEq] at hx
            subst hx
            exact ⟨r1, by simp, ⟨(fun h => by rw [h] at hfd; cases hfd), fun _ => ⟨n, hn, e⟩⟩⟩
          | succ i => simpa using e2 i x (by simpa using hx)
        · cases h
        · cases h
      · cases h
      · cases h

/-- C16: starting while logging is off, for every table, page size and every pattern of allocation failures. -/
theorem C16_start (cfg : Cfg) (m s : Nat) (ops : List Op) (ca : Nat → Bool) (pg : Nat)
    (hoff : (run cfg (create m s) ops).1.dirtyPgsize = 0) :
    let c := (run cfg (create m s) ops).1
    (∃ c', loggingStart ca c pg = (c', .ok ()) ∧ pg ≠ 0 ∧ c'.dirtyPgsize = pg ∧ c'.maxRegions = c.maxRegions ∧
      c'.maxSize = c.maxSize ∧ c'.regions.length = c.regions.length ∧
      ∀ (i : Nat) (r : Region), c.regions[i]? = some r → ∃ r', c'.regions[i]? = some r' ∧ Enabled pg r r') ∨
    (∃ e, loggingStart ca c pg = (c, .err e) ∧ ∀ r ∈ c.regions, r.dirty = none) := by
  have hlog := logInv_run cfg m s ops
  intro c
  change LogInv c at hlog
  change c.dirtyPgsize = 0 at hoff
  clear_value c
  have hn : ∀ r ∈ c.regions, r.dirty = none := fun r hr => (hlog r hr).1 hoff
  unfold loggingStart
  by_cases hp : pg = 0
  · exact .inr ⟨EINVAL, by rw [if_pos hp], hn⟩
  · rw [if_neg hp, if_neg (by omega)]
    cases h : startLoop ca pg 0 c.regions with
    | ok rs =>
      obtain ⟨e1, e2⟩ := startLoop_enabled _ _ _ h
      exact .inl ⟨_, rfl, hp, rfl, rfl, rfl, e1, e2⟩
    | err e => exact .inr ⟨e, by simp only [clearBitmaps_none hn], hn⟩
    | fault f => exact absurd h (startLoop_nofault _ _ _)

/-- C16: it succeeds exactly when the page size is not zero, no file-backed region is smaller than a page, and no
allocation for a file-backed region fails. -/
theorem C16_start_iff (cfg : Cfg) (m s : Nat) (ops : List Op) (ca : Nat → Bool) (pg : Nat)
    (hoff : (run cfg (create m s) ops).1.dirtyPgsize = 0) :
    let c := (run cfg (create m s) ops).1
    (loggingStart ca c pg).2 = .ok () ↔ pg ≠ 0 ∧
      ∀ (i : Nat) (r : Region), c.regions[i]? = some r → r.fd ≠ none → pg ≤ r.info.len ∧ ca i = true := by
  intro c
  change c.dirtyPgsize = 0 at hoff
  clear_value c
  have key : ∀ (rs : List Region) (j : Nat), pg ≠ 0 → ((∃ rs', startLoop ca pg j rs = .ok rs') ↔
      ∀ (i : Nat) (r : Region), rs[i]? = some r → r.fd ≠ none → pg ≤ r.info.len ∧ ca (j + i) = true) := by
    intro rs
    induction rs with
    | nil => intro j _; simp [startLoop]
    | cons r rs ih =>
      intro j hp
      have hsplit : (∀ (i : Nat) (x : Region), (r :: rs)[i]? = some x → x.fd ≠ none → pg ≤ x.info.len ∧ ca (j + i) = true) ↔
          (r.fd ≠ none → pg ≤ r.info.len ∧ ca j = true) ∧
          (∀ (i : Nat) (x : Region), rs[i]? = some x → x.fd ≠ none → pg ≤ x.info.len ∧ ca (j + 1 + i) = true) := by
        constructor
        · intro h
          refine ⟨h 0 r (by simp), fun i x hx hf => ?_⟩
          have := h (i + 1) x (by simpa using hx) hf
          rw [show j + 1 + i = j + (i + 1) by omega]; exact this
        · rintro ⟨h1, h2⟩ i x hx hf
          cases i with
          | zero => simp only [List.getElem?_cons_zero, Option.some.injEq] at hx; subst hx; exact h1 hf
          | succ i =>
            have := h2 i x (by simpa using hx) hf
            rw [show j + (i + 1) = j + 1 + i by omega]; exact this
      rw [hsplit, ← ih (j + 1) hp]
      simp only [startLoop]
      cases hfd : r.fd with
      | none =>
        cases startLoop ca pg (j + 1) rs <;> simp
      | some y =>
        have hon : startOnRegion (ca j) r pg =
            if pg ≤ r.info.len then (if ca j then
              .ok { r with dirty := some (List.replicate (roundUp (r.info.len / pg + (if r.info.len % pg ≠ 0 then 1 else 0)) 64 / 8) 0#8) }
              else .err ENOMEM) else .err EINVAL := by
          unfold startOnRegion getBitmapSize
          rw [hfd]
          simp only [hp, if_false]
          by_cases hl : r.info.len < pg
          · rw [if_pos hl, if_neg (by omega)]
          · have hl' : pg ≤ r.info.len := by omega
            simp only [hl, hl', if_false, if_true]
        rw [hon]
        by_cases hl : pg ≤ r.info.len
        · by_cases hc : ca j = true
          · simp only [hl, hc, if_true]
            cases startLoop ca pg (j + 1) rs <;> simp
          · simp [hl, hc]
        · simp [hl]
  unfold loggingStart
  by_cases hp : pg = 0
  · simp [hp]
  · rw [if_neg hp, if_neg (by omega)]
    have := key c.regions 0 hp
    simp only [Nat.zero_add] at this
    rw [← this]
    cases h : startLoop ca pg 0 c.regions <;> simp [hp]

/-- C16: starting again changes nothing; with another page size it fails (in any table). -/
theorem C16_restart (c : Ctl) (ca : Nat → Bool) (pg : Nat) (hon : c.dirtyPgsize ≠ 0) :
    loggingStart ca c pg = (c, if pg = c.dirtyPgsize then .ok () else .err EINVAL) := by
  unfold loggingStart
  by_cases hp : pg = 0
  · rw [if_pos hp, if_neg (by omega)]
  · rw [if_neg hp, if_pos (by omega)]
    by_cases h : c.dirtyPgsize = pg
    · rw [if_neg (by simpa using h), if_pos h.symm]
    · rw [if_pos h, if_neg (fun e => h e.symm)]

/-- C16: stopping removes every bitmap and keeps everything else. -/
theorem C16_stop (cfg : Cfg) (m s : Nat) (ops : List Op) :
    let c := (run cfg (create m s) ops).1
    (loggingStop c).dirtyPgsize = 0 ∧ (loggingStop c).geoms = c.geoms ∧
      (∀ r ∈ (loggingStop c).regions, r.dirty = none) ∧
      (loggingStop c).regions = c.regions.map (fun r => { r with dirty := none }) := by
  have hlog := logInv_run cfg m s ops
  intro c
  change LogInv c at hlog
  clear_value c
  unfold loggingStop
  by_cases h : c.dirtyPgsize = 0
  · rw [if_pos h]
    have hn : ∀ r ∈ c.regions, r.dirty = none := fun r hr => (hlog r hr).1 h
    refine ⟨h, rfl, hn, ?_⟩
    conv => lhs; rw [← List.map_id c.regions]
    apply List.map_congr_left
    intro r hr
    have := hn r hr
    cases r; simp_all
  · rw [if_neg h]
    refine ⟨rfl, ?_, ?_, rfl⟩
    · simp [Ctl.geoms, Region.geom]
    · intro r hr
      simp only [List.mem_map] at hr
      obtain ⟨x, _, rfl⟩ := hr
      rfl

/-- C16: a region mapped while logging is on comes with a zeroed bitmap of the required size; the others keep
theirs. -/
theorem C16_map (cfg : Cfg) (c : Ctl) (os : OS) (q : MapReq) (hon : c.dirtyPgsize ≠ 0) (x : Fd)
    (hfd : q.fds.head? = some x) :
    let c' := (step cfg c (.map os q)).1
    c' = c ∨ ∃ r n, c' = { c with regions := c.regions ++ [r] } ∧ r.info.base = q.addr ∧ r.info.len = q.size ∧
      getBitmapSize q.size c.dirtyPgsize = .ok n ∧ r.dirty = some (List.replicate n 0#8) := by
  simp only [step]
  have := handleMap_case os cfg.hasReg c q
  generalize handleMap os cfg.hasReg c q = o at this
  cases this with
  | flags => exact .inl rfl
  | fail => exact .inl rfl
  | again => exact .inl rfl
  | new r h1 h2 h3 h4 h5 h6 =>
    obtain ⟨n, e1, e2⟩ := h5.dirty hon x hfd
    exact .inr ⟨r, n, rfl, h5.hbase, h5.hlen, e1, e2⟩

/-- Start, refused restart, a region mapped meanwhile, and a start that fails at the second region. -/
example :
    (run cfg0 (create 64 0x100000) [mapFd 0x10000 0x2000 0 4, mapAt 0x20000 0x1000, .logStart (fun _ => true) 0x1000,
      .logStart (fun _ => true) 0x2000, mapFd 0x30000 0x41000 0 4]).1.regions.map (fun r => r.dirty.map (·.length)) =
      [some 8, none, some 16] ∧
    (loggingStart (fun i => i != 1) (run cfg0 (create 64 0x100000)
      [mapFd 0x10000 0x2000 0 4, mapFd 0x20000 0x2000 0 4]).1 0x1000).2 = .err ENOMEM := by decide

/-! ## C17 -/

/-- C17: for every region size and page size whose page count, rounded up, stays below `2^64`. -/
theorem C17_least (len pg : Nat) (hp : pg ≠ 0) (hl : pg ≤ len) (hn : (len + pg - 1) / pg + 63 < U64) :
    ∃ n, getBitmapSize len pg = .ok n ∧ 8 ∣ n ∧ (∀ b, b < len → b / pg < 8 * n) ∧
      ∀ n', 8 ∣ n' → (∀ b, b < len → b / pg < 8 * n') → n ≤ n' := by
  have hpos : 0 < pg := by omega
  have hlast : (len + pg - 1) / pg = (len - 1) / pg + 1 := by
    rw [show len + pg - 1 = (len - 1) + pg by omega, Nat.add_div_right _ hpos]
  refine ⟨_, getBitmapSize_eq hp hl hn, by omega, fun b hb => ?_, fun n' h8 h => ?_⟩
  · have : b / pg ≤ (len - 1) / pg := Nat.div_le_div_right (by omega)
    omega
  · have := h (len - 1) (by omega)
    omega

/-- C17: zero page size, or a region smaller than a page. -/
theorem C17_refused (len pg : Nat) (h : pg = 0 ∨ len < pg) : getBitmapSize len pg = .err EINVAL := by
  unfold getBitmapSize
  rcases h with h | h
  · simp [h]
  · by_cases h0 : pg = 0
    · simp [h0]
    · simp [h0, h]

example : getBitmapSize 0x41000 0x1000 = .ok 16 ∧ getBitmapSize 0x40000 0x1000 = .ok 8 ∧
    getBitmapSize 100 7 = .ok 8 := by decide

/-! ## C19 -/

/-- C19, 32 bits. -/
theorem C19_sat32 (a b : Nat) (ha : a < 2 ^ 32) (hb : b < 2 ^ 32) :
    satadd32 a b = min (a + b) (2 ^ 32 - 1) ∧ ∀ lim, lim < 2 ^ 32 - 1 → (satadd32 a b > lim ↔ a + b > lim) := by
  have hU : U32 = 2 ^ 32 := U32_eq
  have : satadd32 a b = min (a + b) (2 ^ 32 - 1) := by
    simp only [satadd32, add32, hU]
    by_cases h : a + b < 2 ^ 32
    · rw [Nat.mod_eq_of_lt h, if_neg (by omega)]; omega
    · rw [Nat.mod_eq_sub_mod (by omega), Nat.mod_eq_of_lt (by omega)]
      split <;> omega
  refine ⟨this, fun lim hl => ?_⟩
  rw [this]; omega

/-- C19, 64 bits. -/
theorem C19_sat64 (a b : Nat) (ha : a < 2 ^ 64) (hb : b < 2 ^ 64) :
    satadd64 a b = min (a + b) (2 ^ 64 - 1) ∧ ∀ lim, lim < 2 ^ 64 - 1 → (satadd64 a b > lim ↔ a + b > lim) := by
  have hU : U64 = 2 ^ 64 := U64_eq
  have : satadd64 a b = min (a + b) (2 ^ 64 - 1) := by
    simp only [satadd64, add64, hU]
    by_cases h : a + b < 2 ^ 64
    · rw [Nat.mod_eq_of_lt h, if_neg (by omega)]; omega
    · rw [Nat.mod_eq_sub_mod (by omega), Nat.mod_eq_of_lt (by omega)]
      split <;> omega
  refine ⟨this, fun lim hl => ?_⟩
  rw [this]; omega

example : satadd32 0xfffffff0 0x20 = 2 ^ 32 - 1 ∧ satadd32 0xfffffff0 0xf = 2 ^ 32 - 1 ∧ satadd32 3 4 = 7 ∧
    satadd64 (2 ^ 64 - 16) 17 = 2 ^ 64 - 1 := by decide

end Verif.Dma
