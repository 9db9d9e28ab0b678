import Verif.Dma.Bits

/-! # Invariant of dirty logging: who has a bitmap, and of which size -/

namespace Verif.Dma
open Verif

/-- With logging off no region has a bitmap; with logging on exactly the file-backed ones do, of the size
required for the region. -/
def RegLog (pg : Nat) (r : Region) : Prop :=
  (pg = 0 → r.dirty = none) ∧
  (pg ≠ 0 → r.fd = none → r.dirty = none) ∧
  (pg ≠ 0 → r.fd ≠ none → ∃ bm, r.dirty = some bm ∧ getBitmapSize r.info.len pg = .ok bm.length)

def LogInv (c : Ctl) : Prop := ∀ r ∈ c.regions, RegLog c.dirtyPgsize r

theorem regLog_set {pg : Nat} {r : Region} {bm bm' : List Byte} (h : RegLog pg r) (hd : r.dirty = some bm)
    (hl : bm'.length = bm.length) : RegLog pg { r with dirty := some bm' } := by
  obtain ⟨h1, h2, h3⟩ := h
  refine ⟨fun h0 => ?_, fun h0 hf => ?_, fun h0 hf => ?_⟩
  · rw [h1 h0] at hd; cases hd
  · rw [h2 h0 hf] at hd; cases hd
  · obtain ⟨b, e1, e2⟩ := h3 h0 hf
    rw [hd] at e1; cases e1
    exact ⟨bm', rfl, by rw [hl]; exact e2⟩

theorem mem_set_of {α : Type} {l : List α} {i : Nat} {x y : α} (h : y ∈ l.set i x) : y ∈ l ∨ y = x :=
  List.mem_or_eq_of_mem_set h

theorem getSame_len : ∀ (n i : Nat) (srv out srv' out' : List Byte),
    getSame n i srv out = .ok (srv', out') → srv'.length = srv.length ∧ out'.length = out.length := by
  intro n
  induction n with
  | zero => intro i srv out srv' out' h; simp only [getSame] at h; cases h; simp
  | succ n ih =>
    intro i srv out srv' out' h
    simp only [getSame] at h
    split at h
    · have := ih _ _ _ _ _ h; simpa using this
    · cases h

theorem orBit_len {out out' : List Byte} {i : Nat} {b : Byte} (h : orBit out i b = .ok out') :
    out'.length = out.length := by
  unfold orBit at h
  split at h
  · cases h
  · cases h; simp

theorem extendBits_len (e : Nat) (b : Byte) : ∀ (fuel cb : Nat) (out : List Byte) (cb' : Nat) (out' : List Byte),
    extendBits e b fuel cb out = .ok (cb', out') → out'.length = out.length := by
  intro fuel
  induction fuel with
  | zero =>
    intro cb out cb' out' h
    unfold extendBits at h
    split at h <;> cases h
    rfl
  | succ fuel ih =>
    intro cb out cb' out' h
    unfold extendBits at h
    split at h
    · simp only at h
      split at h
      · rename_i o ho
        rw [ih _ _ _ _ h, orBit_len ho]
      · cases h
      · cases h
    · cases h; rfl

theorem extendByte_len (factor : Nat) (v : Byte) : ∀ (n j cb : Nat) (out : List Byte) (cb' : Nat)
    (out' : List Byte), extendByte factor v n j cb out = .ok (cb', out') → out'.length = out.length := by
  intro n
  induction n with
  | zero => intro j cb out cb' out' h; simp only [extendByte] at h; cases h; rfl
  | succ n ih =>
    intro j cb out cb' out' h
    simp only [extendByte] at h
    split at h
    · rename_i c1 o1 h1
      rw [ih _ _ _ _ _ h, extendBits_len _ _ _ _ _ _ _ h1]
    · cases h
    · cases h

theorem extendLoop_len (factor cs : Nat) : ∀ (n i cb : Nat) (srv out srv' out' : List Byte),
    extendLoop factor cs n i cb srv out = .ok (srv', out') →
    srv'.length = srv.length ∧ out'.length = out.length := by
  intro n
  induction n with
  | zero => intro i cb srv out srv' out' h; simp only [extendLoop] at h; cases h; simp
  | succ n ih =>
    intro i cb srv out srv' out' h
    simp only [extendLoop] at h
    split at h
    · cases h; simp
    · split at h
      · cases h
      · split at h
        · rename_i cb1 out1 h1
          have := ih _ _ _ _ _ _ h
          rw [this.1, this.2, extendByte_len _ _ _ _ _ _ _ _ h1]
          simp
        · cases h
        · cases h

theorem combineByte_len (factor cs i : Nat) (v : Byte) : ∀ (n j cb : Nat) (out : List Byte) (cb' : Nat)
    (out' : List Byte) (b : Bool), combineByte factor cs i v n j cb out = .ok (cb', out', b) →
    out'.length = out.length := by
  intro n
  induction n with
  | zero => intro j cb out cb' out' b h; simp only [combineByte] at h; cases h; rfl
  | succ n ih =>
    intro j cb out cb' out' b h
    simp only [combineByte] at h
    split at h
    · rename_i o1 h1
      split at h
      · split at h
        · cases h; exact orBit_len h1
        · rw [ih _ _ _ _ _ _ h, orBit_len h1]
      · rw [ih _ _ _ _ _ _ h, orBit_len h1]
    · cases h
    · cases h

theorem combineLoop_len (factor cs : Nat) : ∀ (n i cb : Nat) (srv out srv' out' : List Byte),
    combineLoop factor cs n i cb srv out = .ok (srv', out') →
    srv'.length = srv.length ∧ out'.length = out.length := by
  intro n
  induction n with
  | zero => intro i cb srv out srv' out' h; simp only [combineLoop] at h; cases h; simp
  | succ n ih =>
    intro i cb srv out srv' out' h
    simp only [combineLoop] at h
    split at h
    · cases h; simp
    · split at h
      · cases h
      · split at h
        · rename_i h1
          cases h
          simp [combineByte_len _ _ _ _ _ _ _ _ _ _ _ h1]
        · rename_i cb1 out1 h1
          have := ih _ _ _ _ _ _ h
          rw [this.1, this.2, combineByte_len _ _ _ _ _ _ _ _ _ _ _ h1]
          simp
        · cases h
        · cases h

theorem getBits_len {sp cp ss cs : Nat} {srv out srv' out' : List Byte}
    (h : getBits sp cp ss cs srv out = .ok (srv', out')) :
    srv'.length = srv.length ∧ out'.length = out.length := by
  unfold getBits at h
  split at h
  · exact getSame_len _ _ _ _ _ _ h
  · split at h
    · exact extendLoop_len _ _ _ _ _ _ _ _ _ h
    · exact combineLoop_len _ _ _ _ _ _ _ _ _ h

/-- A query either changes nothing, or only the bitmap of one region, keeping its size. -/
theorem dirtyPageGet_upd (c : Ctl) (hint addr len p s : Nat) (out : List Byte) :
    (dirtyPageGet c hint addr len p s out).1 = c ∨
    ∃ i r bm bm', c.regions[i]? = some r ∧ r.dirty = some bm ∧ bm'.length = bm.length ∧
      (dirtyPageGet c hint addr len p s out).1 =
        { c with regions := c.regions.set i { r with dirty := some bm' } } := by
  unfold dirtyPageGet
  repeat' split
  all_goals try (exact .inl rfl)
  rename_i r hr _ _ _ srv hfd hd _ srv' out' hb
  exact .inr ⟨_, r, srv, srv', hr, hd, (getBits_len hb).1, rfl⟩

theorem logInv_query {c : Ctl} (hc : LogInv c) (hint addr len p s : Nat) (out : List Byte) :
    LogInv (dirtyPageGet c hint addr len p s out).1 := by
  rcases dirtyPageGet_upd c hint addr len p s out with h | ⟨i, r, bm, bm', h1, h2, h3, h4⟩
  · rw [h]; exact hc
  · rw [h4]
    intro x hx
    rcases mem_set_of hx with hx | rfl
    · exact hc x hx
    · exact regLog_set (hc r (List.mem_of_getElem? h1)) h2 h3

theorem markLoop_len (pgs pge : Nat) : ∀ (n i : Nat) (bm bm' : List Byte),
    markLoop pgs pge n i bm = .ok bm' → bm'.length = bm.length := by
  intro n
  induction n with
  | zero => intro i bm bm' h; simp only [markLoop] at h; cases h; rfl
  | succ n ih =>
    intro i bm bm' h
    simp only [markLoop] at h
    split at h
    · cases h
    · rw [ih _ _ _ h]; simp

theorem logInv_mark {sgl : List Sg} : ∀ {c c' : Ctl}, LogInv c → sglMark c sgl = .ok c' → LogInv c' := by
  induction sgl with
  | nil => intro c c' hc h; simp only [sglMark] at h; cases h; exact hc
  | cons sg sgl ih =>
    intro c c' hc h
    simp only [sglMark] at h
    split at h
    · cases h; exact hc
    · rename_i r hr
      split at h
      · split at h
        · rename_i r' hr'
          refine ih ?_ h
          intro x hx
          rcases mem_set_of hx with hx | rfl
          · exact hc x hx
          · unfold markDirty at hr'
            split at hr'
            · cases hr'
            · rename_i bm hbm
              simp only at hr'
              split at hr'
              · rename_i bm' hb
                cases hr'
                exact regLog_set (hc r (List.mem_of_getElem? hr)) hbm (markLoop_len _ _ _ _ _ _ hb)
              · cases hr'
              · cases hr'
        · cases h
        · cases h
      · exact ih hc h

theorem startLoop_ok {ca p} (hp : p ≠ 0) : ∀ (rs rs' : List Region) (i : Nat),
    startLoop ca p i rs = .ok rs' → (∀ r ∈ rs, r.dirty = none) → ∀ r ∈ rs', RegLog p r := by
  intro rs
  induction rs with
  | nil => intro rs' i h _; simp only [startLoop] at h; cases h; simp
  | cons r rs ih =>
    intro rs' i h hn
    simp only [List.mem_cons, forall_eq_or_imp] at hn
    simp only [startLoop] at h
    split at h
    · rename_i hfd
      split at h
      · rename_i rs1 h1
        cases h
        simp only [List.mem_cons, forall_eq_or_imp]
        exact ⟨⟨fun h => absurd h hp, fun _ _ => hn.1, fun _ h => absurd hfd h⟩, ih _ _ h1 hn.2⟩
      · cases h
      · cases h
    · split at h
      · rename_i r1 hr1
        obtain ⟨n, hb, e, hf⟩ := startOnRegion_ok hr1
        subst e
        split at h
        · rename_i rs1 h1
          cases h
          simp only [List.mem_cons, forall_eq_or_imp]
          exact ⟨⟨fun h => absurd h hp, fun _ h => absurd h hf, fun _ _ => ⟨_, rfl, by simpa using hb⟩⟩,
            ih _ _ h1 hn.2⟩
        · cases h
        · cases h
      · cases h
      · cases h

theorem clearBitmaps_none {n : Nat} {rs : List Region} (h : ∀ r ∈ rs, r.dirty = none) :
    clearBitmaps n rs = rs := by
  unfold clearBitmaps
  have : (rs.take n).map (fun r : Region => { r with dirty := none }) = rs.take n := by
    conv => rhs; rw [← List.map_id (rs.take n)]
    apply List.map_congr_left
    intro r hr
    have := h r (List.mem_of_mem_take hr)
    cases r
    simp_all
  rw [this, List.take_append_drop]

theorem logInv_start {c : Ctl} (hc : LogInv c) (ca : Nat → Bool) (p : Nat) :
    LogInv (loggingStart ca c p).1 := by
  unfold loggingStart
  split
  · exact hc
  · rename_i hp
    split
    · split <;> exact hc
    · rename_i hd
      have hd : c.dirtyPgsize = 0 := by omega
      have hn : ∀ r ∈ c.regions, r.dirty = none := fun r hr => (hc r hr).1 hd
      split
      · rename_i rs h
        exact startLoop_ok hp _ _ _ h hn
      · rw [clearBitmaps_none hn]; exact hc
      · exact hc

theorem logInv_stop {c : Ctl} (hc : LogInv c) : LogInv (loggingStop c) := by
  unfold loggingStop
  split
  · exact hc
  · intro x hx
    obtain ⟨r, _, rfl⟩ := List.mem_map.mp hx
    exact ⟨fun _ => rfl, fun _ _ => rfl, fun h => absurd rfl h⟩

theorem removeRegion_sub {c c' : Ctl} {u addr size ev} (h : removeRegion c u addr size = .ok (c', ev)) :
    c'.dirtyPgsize = c.dirtyPgsize ∧ c'.regions.Sublist c.regions := by
  unfold removeRegion at h
  split at h
  · rename_i rs ev' h1
    cases h
    obtain ⟨l1, r, l2, e1, e2, _⟩ := removeLoop_ok _ _ _ h1
    refine ⟨rfl, ?_⟩
    simp only [e1, e2]
    exact List.Sublist.append (List.Sublist.refl _) (List.sublist_cons_self _ _)
  · cases h
  · cases h

theorem logInv_sub {c c' : Ctl} (hc : LogInv c) (h : c'.dirtyPgsize = c.dirtyPgsize ∧ c'.regions.Sublist c.regions) :
    LogInv c' := by
  intro r hr
  rw [h.1]
  exact hc r (h.2.subset hr)

theorem logInv_tail {c : Ctl} (hc : LogInv c) (u : Bool) (a s : Nat) (b : Option (List Byte)) :
    LogInv (unmapTail u c a s b).1 := by
  unfold unmapTail
  split
  · rename_i c' ev h
    exact logInv_sub hc (removeRegion_sub h)
  · exact hc
  · exact hc

theorem logInv_unmap {c : Ctl} (hc : LogInv c) (m u : Bool) (a s : Nat) (k : UnmapKind) :
    LogInv (handleUnmap m u c a s k).1 := by
  unfold handleUnmap
  split
  · exact hc
  · cases k with
    | all =>
      simp only
      split
      · rename_i c' ev h
        unfold removeAll at h
        split at h
        · cases h; intro r hr; simp at hr
        · cases h
        · cases h
      · exact hc
      · exact hc
    | plain => exact logInv_tail hc _ _ _ _
    | getDirty pg bs buf hint =>
      simp only
      have hq := logInv_query hc hint a s pg bs buf
      generalize dirtyPageGet c hint a s pg bs buf = o at hq
      obtain ⟨c1, o⟩ := o
      cases o with
      | done bm => exact logInv_tail hq _ _ _ _
      | ret0 => exact logInv_tail hq _ _ _ _
      | noErrno => exact hq
      | err e => exact hq
      | fault f => exact hq

theorem logInv_step (cfg : Cfg) (c : Ctl) (op : Op) (hc : LogInv c) : LogInv (step cfg c op).1 := by
  cases op with
  | map os q =>
    simp only [step]
    have h := handleMap_case os cfg.hasReg c q
    generalize handleMap os cfg.hasReg c q = o at h
    cases h with
    | flags e _ _ => exact hc
    | fail e ev _ _ _ => exact hc
    | again idx r _ _ _ _ _ _ _ _ => exact hc
    | new r h1 h2 h3 h4 h5 _ =>
      intro x hx
      rcases List.mem_append.mp hx with hx | hx
      · exact hc x hx
      · simp only [List.mem_singleton] at hx
        subst hx
        refine ⟨h5.nodirty, fun _ hf => (h5.unmapped (by rw [← h5.hfd]; exact hf)).2.2.2, fun hd hf => ?_⟩
        cases hq : q.fds.head? with
        | none => rw [h5.hfd] at hf; exact absurd hq hf
        | some y =>
          obtain ⟨n, e1, e2⟩ := h5.dirty hd y hq
          exact ⟨_, e2, by rw [h5.hlen]; simpa using e1⟩
  | unmap m a s k => exact logInv_unmap hc m _ a s k
  | logStart ca p => exact logInv_start hc ca p
  | logStop => exact logInv_stop hc
  | query hint a l p s b => exact logInv_query hc hint a l p s b
  | mark sgl =>
    simp only [step]
    cases h : sglMark c sgl with
    | ok c' => exact logInv_mark hc h
    | err e => exact hc
    | fault f => exact hc

theorem logInv_run (cfg : Cfg) (m s : Nat) (ops : List Op) : LogInv (run cfg (create m s) ops).1 :=
  run_induction (Q := fun _ => True) (fun c op hc _ => logInv_step cfg c op hc) ops _
    (by intro r hr; simp [create] at hr) (by simp)

/-- The logging page size is one of those asked for. -/
theorem pgsize_step (cfg : Cfg) (c : Ctl) (op : Op) :
    (step cfg c op).1.dirtyPgsize = c.dirtyPgsize ∨ (step cfg c op).1.dirtyPgsize = 0 ∨
      ∃ ca p, op = .logStart ca p ∧ p ≠ 0 ∧ (step cfg c op).1.dirtyPgsize = p := by
  cases op with
  | map os q =>
    simp only [step]
    have h := handleMap_case os cfg.hasReg c q
    generalize handleMap os cfg.hasReg c q = o at h
    cases h <;> exact .inl rfl
  | unmap m a s k =>
    simp only [step]
    have h := handleUnmap_case m cfg.hasUnreg c a s k
    generalize handleUnmap m cfg.hasUnreg c a s k = o at h
    left
    cases h <;> first | rfl | assumption
  | logStart ca p =>
    simp only [step, loggingStart]
    split
    · exact .inl rfl
    · split
      · split <;> exact .inl rfl
      · split
        · exact .inr (.inr ⟨ca, p, rfl, by assumption, rfl⟩)
        · exact .inl rfl
        · exact .inl rfl
  | logStop =>
    simp only [step, loggingStop]
    split
    · exact .inl rfl
    · exact .inr (.inl rfl)
  | query hint a l p s b => exact .inl (dirtyPageGet_geom c hint a l p s b).2.2.2
  | mark sgl =>
    simp only [step]
    cases h : sglMark c sgl with
    | ok c' => exact .inl (sglMark_geom h).2.2.2
    | err e => exact .inl rfl
    | fault f => exact .inl rfl

end Verif.Dma
