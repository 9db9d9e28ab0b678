import Verif.Dma.Props6

/-!
# The written pages of a table, by range

`Soiled` names a page by the range of its region, not by its place in the table.  What each operation does to it. -/

namespace Verif.Dma
open Verif

/-- Page `p` of the region of `l` bytes at `b` is recorded as written. -/
def Soiled (c : Ctl) (b l p : Nat) : Prop :=
  ∃ r ∈ c.regions, r.info.base = b ∧ r.info.len = l ∧ ∃ bm, r.dirty = some bm ∧ bit bm p = true

theorem soiled_iff (c : Ctl) (b l p : Nat) :
    Soiled c b l p ↔ ∃ i r, c.regions[i]? = some r ∧ r.info.base = b ∧ r.info.len = l ∧ DirtyPage c i p := by
  constructor
  · rintro ⟨r, h1, h2, h3, bm, h4, h5⟩
    obtain ⟨i, hi⟩ := List.getElem?_of_mem h1
    exact ⟨i, r, hi, h2, h3, r, bm, hi, h4, h5⟩
  · rintro ⟨i, r, h1, h2, h3, r', bm, h4, h5, h6⟩
    rw [h1] at h4
    cases h4
    exact ⟨r, List.mem_of_getElem? h1, h2, h3, bm, h5, h6⟩

theorem not_soiled_off {c : Ctl} (h : LogInv c) (h0 : c.dirtyPgsize = 0) (b l p : Nat) : ¬ Soiled c b l p := by
  rintro ⟨r, h1, _, _, bm, h2, _⟩
  rw [(h r h1).1 h0] at h2
  cases h2

/-- Regions that start at the same address are the same region. -/
theorem same_base {c : Ctl} (hg : Good c) (hk : Inv2 c) {i j : Nat} {r s : Region} (hi : c.regions[i]? = some r)
    (hj : c.regions[j]? = some s) (h : r.info.base = s.info.base) : i = j ∧ r = s := by
  have key : ∀ {i j : Nat} {r s : Region}, c.regions[i]? = some r → c.regions[j]? = some s → r.info.base = s.info.base →
      ¬ i < j := by
    intro i j r s hi hj h hlt
    have h1 := List.pairwise_iff_getElem.mp hg.inv.sep
    have h2 := List.pairwise_iff_getElem.mp hk.keys
    obtain ⟨li, ei⟩ := List.getElem?_eq_some_iff.mp hi
    obtain ⟨lj, ej⟩ := List.getElem?_eq_some_iff.mp hj
    have gi : i < c.geoms.length := by unfold Ctl.geoms; rw [List.length_map]; exact li
    have gj : j < c.geoms.length := by unfold Ctl.geoms; rw [List.length_map]; exact lj
    have h1 := h1 i j gi gj hlt
    have h2 := h2 i j gi gj hlt
    simp only [Ctl.geoms, List.getElem_map, ei, ej, SepG, KeyG, Region.geom] at h1 h2
    omega
  have hij : i = j := by
    rcases Nat.lt_trichotomy i j with h1 | h1 | h1
    · exact absurd h1 (key hi hj h)
    · exact h1
    · exact absurd h1 (key hj hi h.symm)
  subst hij
  rw [hi] at hj
  exact ⟨rfl, Option.some.inj hj⟩

/-! ## Map -/

theorem soiled_map (os : OS) (hasReg : Bool) (c : Ctl) (q : MapReq) :
    (handleMap os hasReg c q).ctl.dirtyPgsize = c.dirtyPgsize ∧
      ∀ b l p, Soiled (handleMap os hasReg c q).ctl b l p ↔ Soiled c b l p := by
  have hm := handleMap_case os hasReg c q
  generalize handleMap os hasReg c q = o at hm
  cases hm with
  | flags => exact ⟨rfl, fun _ _ _ => Iff.rfl⟩
  | fail => exact ⟨rfl, fun _ _ _ => Iff.rfl⟩
  | again => exact ⟨rfl, fun _ _ _ => Iff.rfl⟩
  | new r h1 h2 h3 h4 h5 h6 =>
    refine ⟨rfl, fun b l p => ⟨?_, ?_⟩⟩
    · rintro ⟨s, g1, g2, g3, bm, g4, g5⟩
      rcases List.mem_append.mp g1 with g1 | g1
      · exact ⟨s, g1, g2, g3, bm, g4, g5⟩
      · rw [List.mem_singleton.mp g1] at g4
        exfalso
        cases hfd : q.fds.head? with
        | none => rw [(h5.unmapped hfd).2.2.2] at g4; cases g4
        | some x =>
          by_cases h0 : c.dirtyPgsize = 0
          · rw [h5.nodirty h0] at g4; cases g4
          · obtain ⟨n, _, e⟩ := h5.dirty h0 x hfd
            rw [e] at g4
            cases g4
            rw [bit_replicate_zero] at g5
            cases g5
    · rintro ⟨s, g1, g⟩
      exact ⟨s, List.mem_append_left _ g1, g⟩

/-! ## Query -/

/-- The thread's hint is in range if the translation ends. -/
theorem hint_lt {c : Ctl} (hg : Good c) {hint a s n : Nat} {w : Bool} (h : ∀ f, (addrToSgl c hint a s n w).1 ≠ .fault f) :
    hint < c.maxRegions := by
  unfold addrToSgl at h
  cases hr : c.regions[hint]? with
  | some r =>
    have := (List.getElem?_eq_some_iff.mp hr).1
    exact Nat.lt_of_lt_of_le this hg.inv.count
  | none =>
    rw [hr] at h
    dsimp only at h
    by_cases hh : hint < c.maxRegions
    · exact hh
    · rw [if_neg hh] at h
      exact absurd rfl (h .oob)

/-- A query of a whole region touches no other one, and if it is not answered none at all. -/
theorem soiled_get {c : Ctl} (hg : Good c) (hk : Inv2 c) {hint a s pg n : Nat} {buf : List Byte} {r0 : Region}
    (h0 : r0 ∈ c.regions) (hb : r0.info.base = a) (hl : r0.info.len = s) {c1 : Ctl} {o : GetOut}
    (h : dirtyPageGet c hint a s pg n buf = (c1, o)) (hno : ∀ f, o ≠ .fault f) :
    c1.geoms = c.geoms ∧ c1.dirtyPgsize = c.dirtyPgsize ∧ ((∀ bm, o ≠ .done bm) → c1 = c) ∧
      (∀ b l p, ¬ (b = a ∧ l = s) → (Soiled c1 b l p ↔ Soiled c b l p)) ∧ (∀ bm, o = .done bm → r0.fd ≠ none) := by
  by_cases ho : ∀ bm, o ≠ .done bm
  · have := C18_unanswered c hint a s pg n buf c1 o h ho
    subst this
    exact ⟨rfl, rfl, fun _ => rfl, fun _ _ _ _ => Iff.rfl, fun bm h => absurd h (ho bm)⟩
  have ho : ∃ bm, o = .done bm := by
    apply Classical.byContradiction
    intro hn
    exact ho fun bm e => hn ⟨bm, e⟩
  obtain ⟨bm, rfl⟩ := ho
  have hw : a + s < U64 := by
    have := hg.inv.nowrap r0.geom (List.mem_map_of_mem h0)
    simp only [Region.geom, hb, hl] at this
    exact this
  have hx := h
  unfold dirtyPageGet at h
  cases ht : (addrToSgl c hint a s 1 false).1 with
  | err e => rw [ht] at h; cases h
  | fault f => rw [ht] at h; cases h
  | more m => rw [ht] at h; cases h
  | ok sgl =>
    have hh : hint < c.maxRegions := hint_lt hg (fun f hf => by rw [ht] at hf; cases hf)
    rw [ht] at h
    rcases translate_shape hh hw ht with ⟨sg, rfl⟩ | ⟨rfl, _⟩
    · obtain ⟨r, t1, t2, t3, t4, t5, t6⟩ := translate_one_inv hg hh hw ht
      dsimp only at h
      by_cases e1 : sg.dmaAddr ≠ a ∨ sg.length ≠ s
      · rw [if_pos e1] at h; cases h
      rw [if_neg e1] at h
      by_cases e2 : c.dirtyPgsize = 0
      · rw [if_pos e2] at h; cases h
      rw [if_neg e2] at h
      by_cases e3 : badClientPg pg = true
      · rw [if_pos e3] at h; cases h
      rw [if_neg e3] at h
      cases hss : getBitmapSize s c.dirtyPgsize with
      | err e => rw [hss] at h; cases h
      | fault f => rw [hss] at h; cases h
      | ok ss =>
      rw [hss] at h
      dsimp only at h
      cases hcs : getBitmapSize s pg with
      | err e => rw [hcs] at h; cases h
      | fault f => rw [hcs] at h; cases h
      | ok cs =>
      rw [hcs] at h
      dsimp only at h
      by_cases e4 : n ≠ cs
      · rw [if_pos e4] at h; cases h
      rw [if_neg e4, t1] at h
      dsimp only at h
      cases hfd : r.fd with
      | none => rw [hfd] at h; cases h
      | some x =>
      rw [hfd] at h
      cases hd : r.dirty with
      | none => rw [hd] at h; cases h
      | some srv =>
      rw [hd] at h
      dsimp only at h
      cases hb2 : getBits c.dirtyPgsize pg ss cs srv buf with
      | err e => rw [hb2] at h; cases h
      | fault f => rw [hb2] at h; cases h
      | ok y =>
      obtain ⟨srv', out'⟩ := y
      rw [hb2] at h
      cases h
      have hbase : r.info.base = a := by omega
      obtain ⟨i0, hi0⟩ := List.getElem?_of_mem h0
      obtain ⟨_, rfl⟩ := same_base hg hk t1 hi0 (by rw [hb, hbase])
      refine ⟨?_, rfl, fun hn => absurd rfl (hn _), fun b l p hne => ?_, fun _ _ => by rw [hfd]; simp⟩
      · unfold Ctl.geoms
        rw [List.map_set]
        apply List.ext_getElem?
        intro j
        rw [List.getElem?_set]
        split_ifs with hj hj2
        · subst hj; rw [List.getElem?_map, t1]; simp only [Region.geom, Option.map_some, hfd]
        · subst hj
          have := (List.getElem?_eq_some_iff.mp t1).1
          rw [List.length_map] at hj2
          omega
        · rfl
      · constructor
        · rintro ⟨x', g1, g2, g3, g⟩
          rcases mem_set_of g1 with g1 | rfl
          · exact ⟨x', g1, g2, g3, g⟩
          · exact absurd ⟨g2.symm.trans hb, g3.symm.trans hl⟩ hne
        · rintro ⟨x', g1, g2, g3, g⟩
          refine ⟨x', ?_, g2, g3, g⟩
          obtain ⟨j, hj⟩ := List.getElem?_of_mem g1
          refine List.mem_of_getElem? (i := j) ?_
          rw [List.getElem?_set]
          split_ifs with hij hlt
          · subst hij
            rw [t1] at hj
            cases hj
            exact absurd ⟨g2.symm.trans hb, g3.symm.trans hl⟩ hne
          · subst hij
            exact absurd (List.getElem?_eq_some_iff.mp hj).1 hlt
          · exact hj
    · cases h

/-! ## Unmap -/

theorem soiled_tail {c : Ctl} (hk : Inv2 c) (u : Bool) (a s : Nat) (bm : Option (List Byte)) {b l p : Nat} :
    (unmapTail u c a s bm).1.dirtyPgsize = c.dirtyPgsize ∧
    ((∃ x, (unmapTail u c a s bm).2.1 = .ok x) →
      (Soiled (unmapTail u c a s bm).1 b l p ↔ Soiled c b l p ∧ ¬ (b = a ∧ l = s))) ∧
    ((∀ x, (unmapTail u c a s bm).2.1 ≠ .ok x) → (unmapTail u c a s bm).1 = c) := by
  unfold unmapTail removeRegion
  cases h : removeLoop u a s c.regions with
  | err e => exact ⟨rfl, (fun ⟨x, hx⟩ => by cases hx), fun _ => rfl⟩
  | fault f => exact ⟨rfl, (fun ⟨x, hx⟩ => by cases hx), fun _ => rfl⟩
  | ok y =>
    obtain ⟨rs', ev⟩ := y
    obtain ⟨l1, r, l2, e1, e2, e3, e4, _, _⟩ := removeLoop_ok _ _ _ h
    refine ⟨rfl, fun _ => ?_, fun hn => absurd rfl (hn bm)⟩
    dsimp only
    have hkeys := hk.keys
    unfold Ctl.geoms at hkeys
    rw [e1, List.map_append, List.map_cons, List.pairwise_append] at hkeys
    obtain ⟨_, k2, k3⟩ := hkeys
    rw [List.pairwise_cons] at k2
    have other : ∀ x ∈ l1 ++ l2, ¬ (x.info.base = a ∧ x.info.len = s) := by
      intro x hx hxa
      rcases List.mem_append.mp hx with hx | hx
      · have := k3 _ (List.mem_map_of_mem hx) _ (List.mem_cons_self ..)
        simp only [KeyG, Region.geom] at this
        omega
      · have := k2.1 _ (List.mem_map_of_mem hx)
        simp only [KeyG, Region.geom] at this
        omega
    subst e2
    constructor
    · rintro ⟨x, g1, g2, g3, g⟩
      refine ⟨⟨x, ?_, g2, g3, g⟩, fun hba => other x g1 ⟨g2.trans hba.1, g3.trans hba.2⟩⟩
      rw [e1]
      rcases List.mem_append.mp g1 with g1 | g1
      · exact List.mem_append_left _ g1
      · exact List.mem_append_right _ (List.mem_cons_of_mem _ g1)
    · rintro ⟨⟨x, g1, g2, g3, g⟩, hne⟩
      refine ⟨x, ?_, g2, g3, g⟩
      rw [e1] at g1
      rcases List.mem_append.mp g1 with g1 | g1
      · exact List.mem_append_left _ g1
      · rcases List.mem_cons.mp g1 with rfl | g1
        · exact absurd ⟨g2.symm.trans e3, g3.symm.trans e4⟩ hne
        · exact List.mem_append_right _ g1

theorem inv2_geoms {c c1 : Ctl} (h : Inv2 c) (hg : c1.geoms = c.geoms) : Inv2 c1 :=
  ⟨by rw [hg]; exact h.cons, by rw [hg]; exact h.keys⟩

/-- An unmap request that, if it asks for the bitmap, names a whole region. -/
theorem soiled_unmap {c : Ctl} (hg : Good c) (hk : Inv2 c) (m u : Bool) (a s : Nat) (k : UnmapKind)
    (hwhole : ∀ pg n buf hint, k = .getDirty pg n buf hint → ∃ r ∈ c.regions, r.info.base = a ∧ r.info.len = s)
    (hno : ∀ f, (handleUnmap m u c a s k).2.1 ≠ .fault f) :
    (handleUnmap m u c a s k).1.dirtyPgsize = c.dirtyPgsize ∧
    ((∃ x, (handleUnmap m u c a s k).2.1 = .ok x) → ∀ b l p,
      (Soiled (handleUnmap m u c a s k).1 b l p ↔ k ≠ .all ∧ Soiled c b l p ∧ ¬ (b = a ∧ l = s))) ∧
    ((∀ x, (handleUnmap m u c a s k).2.1 ≠ .ok x) → ∀ b l p,
      (Soiled (handleUnmap m u c a s k).1 b l p ↔ Soiled c b l p)) := by
  unfold handleUnmap at hno ⊢
  by_cases hm : m = false
  · rw [if_pos hm]; exact ⟨rfl, (fun ⟨x, hx⟩ => by cases hx), fun _ _ _ _ => Iff.rfl⟩
  rw [if_neg hm] at hno ⊢
  cases k with
  | all =>
    dsimp only at hno ⊢
    unfold removeAll at hno ⊢
    cases h : dropAll u c.regions with
    | err e => exact ⟨rfl, (fun ⟨x, hx⟩ => by cases hx), fun _ _ _ _ => Iff.rfl⟩
    | fault f => rw [h] at hno; exact absurd rfl (hno f)
    | ok ev =>
      refine ⟨rfl, fun _ b l p => ⟨?_, fun h => absurd rfl h.1⟩, fun hn => absurd rfl (hn none)⟩
      rintro ⟨r, hr, _⟩
      cases hr
  | plain =>
    dsimp only at hno ⊢
    refine ⟨(soiled_tail hk u a s none (b := 0) (l := 0) (p := 0)).1, fun hx b l p => ?_, fun hx b l p => ?_⟩
    · rw [(soiled_tail hk u a s none).2.1 hx]; simp
    · rw [(soiled_tail hk u a s none (b := b) (l := l) (p := p)).2.2 hx]
  | getDirty pg n buf hint =>
    obtain ⟨r0, w1, w2, w3⟩ := hwhole pg n buf hint rfl
    dsimp only at hno ⊢
    cases hq : dirtyPageGet c hint a s pg n buf with
    | mk c1 o =>
    rw [hq] at hno
    have hnof : ∀ f, o ≠ .fault f := by
      rintro f rfl
      exact hno f rfl
    obtain ⟨g1, g2, g3, g4, _⟩ := soiled_get hg hk w1 w2 w3 hq hnof
    have hk1 := inv2_geoms hk g1
    have tail : ∀ bm, (∀ f, (unmapTail u c1 a s bm).2.1 ≠ .fault f) →
        (unmapTail u c1 a s bm).1.dirtyPgsize = c.dirtyPgsize ∧
        ((∃ x, (unmapTail u c1 a s bm).2.1 = .ok x) → ∀ b l p,
          (Soiled (unmapTail u c1 a s bm).1 b l p ↔ UnmapKind.getDirty pg n buf hint ≠ .all ∧ Soiled c b l p ∧ ¬ (b = a ∧ l = s))) ∧
        ((∀ x, (unmapTail u c1 a s bm).2.1 ≠ .ok x) → ∀ b l p,
          (Soiled (unmapTail u c1 a s bm).1 b l p ↔ Soiled c b l p)) := by
      intro bm hnf
      refine ⟨(soiled_tail hk1 u a s bm (b := 0) (l := 0) (p := 0)).1.trans g2, fun hx b l p => ?_, fun hx => ?_⟩
      · rw [(soiled_tail hk1 u a s bm).2.1 hx]
        constructor
        · rintro ⟨h1, h2⟩; exact ⟨by simp, (g4 b l p h2).mp h1, h2⟩
        · rintro ⟨_, h1, h2⟩; exact ⟨(g4 b l p h2).mpr h1, h2⟩
      · exfalso
        unfold unmapTail removeRegion at hx hnf
        cases hrl : removeLoop u a s c1.regions with
        | ok y => rw [hrl] at hx; exact hx bm rfl
        | fault f => rw [hrl] at hnf; exact hnf f rfl
        | err e =>
          obtain ⟨_, e2⟩ := removeLoop_err _ _ hrl
          have hmem : r0.geom ∈ c1.geoms := by rw [g1]; exact List.mem_map_of_mem w1
          obtain ⟨r1, q1, q2⟩ := List.mem_map.mp hmem
          simp only [Region.geom, Prod.mk.injEq] at q2
          exact e2 r1 q1 ⟨by rw [q2.1, w2], by rw [q2.1, w3]⟩
    cases o with
    | done bm => exact tail (some bm) hno
    | ret0 => exact tail (some buf) hno
    | noErrno =>
      have := g3 (by simp)
      subst this
      exact ⟨rfl, (fun ⟨x, hx⟩ => by cases hx), fun _ _ _ _ => Iff.rfl⟩
    | err e =>
      have := g3 (by simp)
      subst this
      exact ⟨rfl, (fun ⟨x, hx⟩ => by cases hx), fun _ _ _ _ => Iff.rfl⟩
    | fault f => exact absurd rfl (hnof f)

/-! ## Switching logging on and off -/

theorem soiled_start {c : Ctl} (hl : LogInv c) (ca : Nat → Bool) (pg : Nat) :
    ((loggingStart ca c pg).2 = .ok () → (loggingStart ca c pg).1.dirtyPgsize = pg) ∧
    ((loggingStart ca c pg).2 ≠ .ok () → (loggingStart ca c pg).1.dirtyPgsize = c.dirtyPgsize) ∧
    ∀ b l p, Soiled (loggingStart ca c pg).1 b l p ↔ Soiled c b l p := by
  unfold loggingStart
  by_cases h0 : pg = 0
  · rw [if_pos h0]; exact ⟨(fun h => by cases h), fun _ => rfl, fun _ _ _ => Iff.rfl⟩
  rw [if_neg h0]
  by_cases h1 : c.dirtyPgsize > 0
  · rw [if_pos h1]
    by_cases h2 : c.dirtyPgsize ≠ pg
    · rw [if_pos h2]; exact ⟨(fun h => by cases h), fun _ => rfl, fun _ _ _ => Iff.rfl⟩
    · rw [if_neg h2]
      exact ⟨fun _ => by dsimp only; omega, fun h => absurd rfl h, fun _ _ _ => Iff.rfl⟩
  rw [if_neg h1]
  have hoff : c.dirtyPgsize = 0 := by omega
  have hnone : ∀ r ∈ c.regions, r.dirty = none := fun r hr => (hl r hr).1 hoff
  cases hs : startLoop ca pg 0 c.regions with
  | ok rs =>
    refine ⟨fun _ => rfl, fun h => absurd rfl h, fun b l p => ⟨?_, fun h => absurd h (not_soiled_off hl hoff b l p)⟩⟩
    rintro ⟨r, g1, _, _, bm, g2, g3⟩
    exfalso
    obtain ⟨e1, e2⟩ := startLoop_enabled _ _ _ hs
    obtain ⟨i, hi⟩ := List.getElem?_of_mem g1
    have hlt : i < c.regions.length := by
      have := (List.getElem?_eq_some_iff.mp hi).1
      dsimp only at this
      omega
    obtain ⟨r', h1, h2, h3⟩ := e2 i c.regions[i] (List.getElem?_eq_getElem hlt)
    dsimp only at hi
    rw [hi] at h1
    cases h1
    by_cases hf : c.regions[i].fd = none
    · rw [h2 hf, hnone _ (List.getElem_mem hlt)] at g2; cases g2
    · obtain ⟨n, _, e⟩ := h3 hf
      rw [e] at g2
      cases g2
      rw [bit_replicate_zero] at g3
      cases g3
  | err e =>
    refine ⟨(fun h => by cases h), fun _ => rfl, fun b l p => ?_⟩
    dsimp only
    rw [clearBitmaps_none hnone]
  | fault f => exact ⟨(fun h => by cases h), fun _ => rfl, fun _ _ _ => Iff.rfl⟩

theorem soiled_stop {c : Ctl} (hl : LogInv c) :
    (loggingStop c).dirtyPgsize = 0 ∧ ∀ b l p, ¬ Soiled (loggingStop c) b l p := by
  have h0 : (loggingStop c).dirtyPgsize = 0 := by
    unfold loggingStop
    split_ifs with h
    · exact h
    · rfl
  exact ⟨h0, not_soiled_off (logInv_stop hl) h0⟩

/-! ## Marks -/

/-- The entry is a non-empty part of the file-backed region it names, by its place and by its address. -/
def NamesRegion (c : Ctl) (sg : Sg) : Prop :=
  ∃ r, c.regions[sg.region]? = some r ∧ r.info.base = sg.dmaAddr ∧ r.fd ≠ none ∧ 0 < sg.length ∧
    sg.offset + sg.length ≤ r.info.len

/-- The entry covers a byte of page `p` of the range of `l` bytes at `b`; pages of `pg` bytes are counted from `b`. -/
def Sg.Wets (sg : Sg) (pg b l p : Nat) : Prop :=
  sg.writeable = true ∧ ∃ a, sg.dmaAddr + sg.offset ≤ a ∧ a < sg.dmaAddr + sg.offset + sg.length ∧ b ≤ a ∧ a < b + l ∧
    (a - b) / pg = p

theorem soiled_mark {c c' : Ctl} (hg : Good c) {sgl : List Sg} (hv : ∀ sg ∈ sgl, NamesRegion c sg)
    (hp : c.dirtyPgsize = 0 ∨ ∃ k, c.dirtyPgsize = 2 ^ k) (h : sglMark c sgl = .ok c') :
    c'.dirtyPgsize = c.dirtyPgsize ∧ ∀ b l p, Soiled c' b l p ↔ Soiled c b l p ∨
      c.dirtyPgsize ≠ 0 ∧ (∃ r ∈ c.regions, r.info.base = b ∧ r.info.len = l) ∧
        ∃ sg ∈ sgl, sg.Wets c.dirtyPgsize b l p := by
  rcases hp with h0 | ⟨k, hk2⟩
  · rw [C11_off c h0 sgl] at h
    cases h
    exact ⟨rfl, fun b l p => by simp [h0]⟩
  obtain ⟨c1, e1, e2, e3, _, e5⟩ := sglMark_spec sgl c hk2 hg.log hg.small (fun sg hs => by
    obtain ⟨r, g1, _, g3, g4, g5⟩ := hv sg hs
    exact ⟨r, g1, g3, g4, g5⟩)
  rw [h] at e1
  cases e1
  have hpos : c.dirtyPgsize ≠ 0 := by rw [hk2]; have := Nat.two_pow_pos k; omega
  refine ⟨e3, fun b l p => ?_⟩
  rw [soiled_iff, soiled_iff]
  have tr : ∀ {i : Nat} {r : Region}, c'.regions[i]? = some r → ∃ r0, c.regions[i]? = some r0 ∧ r0.info = r.info := by
    intro i r hr
    have hgm : (c.geoms)[i]? = some r.geom := by rw [← e2, Ctl.geoms, List.getElem?_map, hr]; rfl
    rw [Ctl.geoms, List.getElem?_map] at hgm
    cases hr0 : c.regions[i]? with
    | none => rw [hr0] at hgm; cases hgm
    | some r0 =>
      rw [hr0] at hgm
      simp only [Option.map_some, Region.geom, Option.some.injEq, Prod.mk.injEq] at hgm
      exact ⟨r0, rfl, hgm.1⟩
  have tr' : ∀ {i : Nat} {r : Region}, c.regions[i]? = some r → ∃ r0, c'.regions[i]? = some r0 ∧ r0.info = r.info := by
    intro i r hr
    have hgm : (c'.geoms)[i]? = some r.geom := by rw [e2, Ctl.geoms, List.getElem?_map, hr]; rfl
    rw [Ctl.geoms, List.getElem?_map] at hgm
    cases hr0 : c'.regions[i]? with
    | none => rw [hr0] at hgm; cases hgm
    | some r0 =>
      rw [hr0] at hgm
      simp only [Option.map_some, Region.geom, Option.some.injEq, Prod.mk.injEq] at hgm
      exact ⟨r0, rfl, hgm.1⟩
  constructor
  · rintro ⟨i, r, h1, h2, h3, h4⟩
    obtain ⟨r0, g1, g2⟩ := tr h1
    rcases (e5 i p).mp h4 with h4 | ⟨sg, hs, w1, w2, x, w3, w4, w5⟩
    · exact .inl ⟨i, r0, g1, by rw [g2]; exact h2, by rw [g2]; exact h3, h4⟩
    · right
      refine ⟨hpos, ⟨r0, List.mem_of_getElem? g1, by rw [g2]; exact h2, by rw [g2]; exact h3⟩, sg, hs, w1, ?_⟩
      obtain ⟨r1, n1, n2, n3, n4, n5⟩ := hv sg hs
      rw [w2, g1] at n1
      cases n1
      rw [g2] at n2 n5
      refine ⟨b + x, ?_, ?_, by omega, by omega, ?_⟩
      · omega
      · omega
      · rw [Nat.add_sub_cancel_left, hk2]; exact w5
  · rintro (⟨i, r, h1, h2, h3, h4⟩ | ⟨_, ⟨r, hr, h2, h3⟩, sg, hs, w1, x, w2, w3, w4, w5, w6⟩)
    · obtain ⟨r0, g1, g2⟩ := tr' h1
      exact ⟨i, r0, g1, by rw [g2]; exact h2, by rw [g2]; exact h3, (e5 i p).mpr (.inl h4)⟩
    · obtain ⟨i, hi⟩ := List.getElem?_of_mem hr
      obtain ⟨r0, g1, g2⟩ := tr' hi
      refine ⟨i, r0, g1, by rw [g2]; exact h2, by rw [g2]; exact h3, (e5 i p).mpr (.inr ⟨sg, hs, w1, ?_, ?_⟩)⟩
      · obtain ⟨r1, n1, n2, n3, n4, n5⟩ := hv sg hs
        refine noshare_of_sep hg.inv.sep _ _ _ _ x n1 hi ?_ ?_
        · unfold Region.Covers; omega
        · unfold Region.Covers; omega
      · obtain ⟨r1, n1, n2, n3, n4, n5⟩ := hv sg hs
        have : sg.region = i := by
          refine noshare_of_sep hg.inv.sep _ _ _ _ x n1 hi ?_ ?_
          · unfold Region.Covers; omega
          · unfold Region.Covers; omega
        rw [this, hi] at n1
        cases n1
        refine ⟨x - b, by omega, by omega, ?_⟩
        rw [← hk2]
        exact w6

/-- The query of a whole region at the page size of the log. -/
theorem soiled_query {c : Ctl} (hg : Good c) (hk : Inv2 c) {k hint : Nat} {r : Region} {n : Nat} (hp : c.dirtyPgsize = 2 ^ k)
    (hh : hint < c.maxRegions) (hr : r ∈ c.regions) (hfd : r.fd ≠ none)
    (hb : getBitmapSize r.info.len (2 ^ k) = .ok n) {buf : List Byte} (hbuf : buf.length = n) :
    ∃ c' out, dirtyPageGet c hint r.info.base r.info.len (2 ^ k) n buf = (c', .done out) ∧ out.length = n ∧
      c'.dirtyPgsize = c.dirtyPgsize ∧ c'.geoms = c.geoms ∧
      (∀ p, bit out p = true ↔ Soiled c r.info.base r.info.len p) ∧
      ∀ b l p, Soiled c' b l p ↔ Soiled c b l p ∧ ¬ (b = r.info.base ∧ l = r.info.len) := by
  subst hbuf
  obtain ⟨i, hi⟩ := List.getElem?_of_mem hr
  obtain ⟨c', out, q1, q2, q3, _, _, q6, q7, q8⟩ := query_same hg hp hh hi hfd hb
  obtain ⟨s1, _, _, s4, _⟩ := soiled_get hg hk hr rfl rfl q1 (by simp)
  refine ⟨c', out, q1, q6, q3, q2, fun p => ?_, fun b l p => ?_⟩
  · rw [q7, soiled_iff]
    constructor
    · intro h; exact ⟨i, r, hi, rfl, rfl, h⟩
    · rintro ⟨j, r', h1, h2, h3, h4⟩
      obtain ⟨rfl, _⟩ := same_base hg hk h1 hi h2
      exact h4
  · by_cases hne : b = r.info.base ∧ l = r.info.len
    · simp only [hne, and_self, not_true_eq_false, and_false, iff_false]
      rw [soiled_iff]
      rintro ⟨j, r', h1, h2, h3, h4⟩
      have hgm : (c.geoms)[j]? = some r'.geom := by rw [← q2, Ctl.geoms, List.getElem?_map, h1]; rfl
      rw [Ctl.geoms, List.getElem?_map] at hgm
      cases hr0 : c.regions[j]? with
      | none => rw [hr0] at hgm; cases hgm
      | some r0 =>
        rw [hr0] at hgm
        simp only [Option.map_some, Region.geom, Option.some.injEq, Prod.mk.injEq] at hgm
        obtain ⟨rfl, _⟩ := same_base hg hk hr0 hi (by rw [hgm.1]; exact h2)
        exact ((q8 j p).mp h4).1 rfl
    · rw [s4 b l p hne]
      simp [hne]

/-- With logging off nothing is recorded, before and after. -/
theorem unmap_off {c : Ctl} (hl : LogInv c) (h0 : c.dirtyPgsize = 0) (m u : Bool) (a s : Nat) (k : UnmapKind) :
    (handleUnmap m u c a s k).1.dirtyPgsize = 0 ∧ ∀ b l p, ¬ Soiled (handleUnmap m u c a s k).1 b l p := by
  have h1 : (handleUnmap m u c a s k).1.dirtyPgsize = 0 := by
    have h := handleUnmap_case m u c a s k
    generalize handleUnmap m u c a s k = o at h
    cases h with
    | removed c1 l1 l2 r b _ _ _ _ e => exact e.trans h0
    | cleared => exact h0
    | enoent c1 _ _ _ _ e => exact e.trans h0
    | nomem => exact h0
    | dirtyFail c1 _ _ _ _ _ _ _ _ _ _ e => exact e.trans h0
    | assert c1 _ _ _ _ _ e => exact e.trans h0
  exact ⟨h1, not_soiled_off (logInv_step ⟨false, u⟩ c (.unmap m a s k) hl) h1⟩

/-- A report at the page size of the log of a region that exists, or with logging off. -/
theorem soiled_report {c : Ctl} (hg : Good c) (hk : Inv2 c) {hint a s pg n : Nat} {buf : List Byte} (hbuf : buf.length = n)
    (hn : getBitmapSize s pg = .ok n) (hw : c.dirtyPgsize = 0 ∨ (∃ k, pg = 2 ^ k) ∧ c.dirtyPgsize = pg ∧
      ∃ r ∈ c.regions, r.info.base = a ∧ r.info.len = s) {c1 : Ctl} {o : GetOut}
    (h : dirtyPageGet c hint a s pg n buf = (c1, o)) (hno : ∀ f, o ≠ .fault f) :
    c1.dirtyPgsize = c.dirtyPgsize ∧ ((∀ bm, o ≠ .done bm) → o ≠ .ret0 → c1 = c) ∧
      ((∃ bm, o = .done bm) ∨ o = .ret0 → ∀ b l p, Soiled c1 b l p ↔ Soiled c b l p ∧ ¬ (b = a ∧ l = s)) ∧
      (∀ bm, o = .done bm → ∀ p, bit bm p = true ↔ Soiled c a s p) ∧ (o = .ret0 → ∀ p, ¬ Soiled c a s p) := by
  have hpg : c1.dirtyPgsize = c.dirtyPgsize := by
    rcases dirtyPageGet_upd c hint a s pg n buf with e | ⟨_, _, _, _, _, _, _, e⟩ <;> (rw [h] at e; dsimp only at e; rw [e])
  refine ⟨hpg, fun h1 _ => C18_unanswered c hint a s pg n buf c1 o h h1, ?_⟩
  rcases hw with h0 | ⟨⟨k, hpk⟩, hpe, r, hr, hb, hl⟩
  · refine ⟨fun ho b l p => ?_, fun bm ho => ?_, fun _ p => not_soiled_off hg.log h0 a s p⟩
    rotate_left
    · subst ho
      exfalso
      unfold dirtyPageGet at h
      simp only [if_pos h0] at h
      revert h
      split <;> first
        | (intro h; cases h; done)
        | (split_ifs <;> (intro h; cases h))
    have h1 : LogInv c1 := by
      have := logInv_step ⟨false, false⟩ c (.query hint a s pg n buf) hg.log
      simp only [step, h] at this
      exact this
    exact iff_of_false (not_soiled_off h1 (hpg.trans h0) b l p) (fun h => not_soiled_off hg.log h0 b l p h.1)
  · by_cases hfd : r.fd = none
    · have hnd : r.dirty = none := by
        rcases Nat.eq_zero_or_pos c.dirtyPgsize with h0 | h0
        · exact (hg.log r hr).1 h0
        · exact (hg.log r hr).2.1 (by omega) hfd
      have hclean : ∀ p, ¬ Soiled c a s p := by
        rintro p ⟨r', h1, h2, h3, bm, h4, _⟩
        obtain ⟨i, hi⟩ := List.getElem?_of_mem hr
        obtain ⟨j, hj⟩ := List.getElem?_of_mem h1
        obtain ⟨_, rfl⟩ := same_base hg hk hi hj (hb.trans h2.symm)
        rw [hnd] at h4
        cases h4
      obtain ⟨g1, _, g3, g4, g5⟩ := soiled_get hg hk hr hb hl h hno
      refine ⟨fun ho b l p => ?_, fun bm ho => absurd hfd (g5 bm ho), fun _ p => hclean p⟩
      by_cases hne : b = a ∧ l = s
      · obtain ⟨rfl, rfl⟩ := hne
        refine iff_of_false ?_ (fun h => h.2 ⟨rfl, rfl⟩)
        rintro ⟨r', h1, h2, h3, bm, h4, _⟩
        have h5 : r'.geom ∈ c.geoms := by rw [← g1]; exact List.mem_map_of_mem h1
        obtain ⟨r1, h6, h7⟩ := List.mem_map.mp h5
        obtain ⟨i, hi⟩ := List.getElem?_of_mem hr
        obtain ⟨j, hj⟩ := List.getElem?_of_mem h6
        simp only [Region.geom, Prod.mk.injEq] at h7
        obtain ⟨_, rfl⟩ := same_base hg hk hi hj (by rw [h7.1, h2, hb])
        have hlog : LogInv c1 := by
          have := logInv_step ⟨false, false⟩ c (.query hint b l pg n buf) hg.log
          simp only [step, h] at this
          exact this
        have : r'.dirty = none := by
          rcases Nat.eq_zero_or_pos c1.dirtyPgsize with h0 | h0
          · exact (hlog r' h1).1 h0
          · exact (hlog r' h1).2.1 (by omega) (by rw [← h7.2.1]; exact hfd)
        rw [this] at h4
        cases h4
      · rw [g4 b l p hne]; simp [hne]
    · have hh : hint < c.maxRegions := by
        refine hint_lt hg (a := a) (s := s) (n := 1) (w := false) fun f hf => ?_
        unfold dirtyPageGet at h
        rw [hf] at h
        cases h
        exact hno f rfl
      rw [hpk] at h hn
      rw [← hl] at hn
      obtain ⟨c', out, q1, _, _, _, q5, q6⟩ := soiled_query hg hk (hpe.trans hpk) hh hr hfd hn hbuf
      rw [hb, hl] at q1 q5 q6
      rw [h] at q1
      cases q1
      exact ⟨fun _ => q6, fun bm ho => by cases ho; exact q5, fun ho => by cases ho⟩

theorem start_errno {b : Bool} {r : Region} {pg e : Nat} (h : startOnRegion b r pg = .err e) : e = EINVAL ∨ e = ENOMEM := by
  unfold startOnRegion at h
  cases hf : r.fd with
  | none => rw [hf] at h; cases h
  | some x =>
    rw [hf] at h
    dsimp only at h
    cases hb : getBitmapSize r.info.len pg with
    | fault f => rw [hb] at h; cases h
    | err e' =>
      rw [hb] at h
      cases h
      unfold getBitmapSize at hb
      split_ifs at hb <;> (cases hb; exact .inl rfl)
    | ok n =>
      rw [hb] at h
      cases b
      · cases h; exact .inr rfl
      · cases h

theorem startLoop_errno {ca : Nat → Bool} {pg e : Nat} : ∀ {rs : List Region} {i : Nat}, startLoop ca pg i rs = .err e →
    e = EINVAL ∨ e = ENOMEM := by
  intro rs
  induction rs with
  | nil => intro i h; cases h
  | cons r rs ih =>
    intro i h
    unfold startLoop at h
    cases hf : r.fd with
    | none =>
      rw [hf] at h
      dsimp only at h
      cases hs : startLoop ca pg (i + 1) rs with
      | ok l => rw [hs] at h; cases h
      | err e' => rw [hs] at h; cases h; exact ih hs
      | fault f => rw [hs] at h; cases h
    | some x =>
      rw [hf] at h
      dsimp only at h
      cases hr : startOnRegion (ca i) r pg with
      | fault f => rw [hr] at h; cases h
      | err e' => rw [hr] at h; cases h; exact start_errno hr
      | ok r' =>
        rw [hr] at h
        dsimp only at h
        cases hs : startLoop ca pg (i + 1) rs with
        | ok l => rw [hs] at h; cases h
        | err e' => rw [hs] at h; cases h; exact ih hs
        | fault f => rw [hs] at h; cases h

theorem loggingStart_errno {ca : Nat → Bool} {c : Ctl} {pg e : Nat} (h : (loggingStart ca c pg).2 = .err e) :
    e = EINVAL ∨ e = ENOMEM := by
  unfold loggingStart at h
  split_ifs at h with h0 h1 h2
  · cases h; exact .inl rfl
  · cases h; exact .inl rfl
  · revert h
    cases hs : startLoop ca pg 0 c.regions with
    | ok l => intro h; cases h
    | err e' => intro h; cases h; exact startLoop_errno hs
    | fault f => intro h; cases h

end Verif.Dma
