import Verif.Dma.Translate
import Verif.Dma.Props1

/-!
# C04, C05, C06: translating guest ranges
-/

namespace Verif.Dma
open Verif

/-! ## Specification -/

/-- `Tiles c write a l sgl`: the entries `sgl` describe, one after the other, exactly the bytes
`a, …, a+l-1`; every entry is a non-empty part of one region that may be accessed, and stops only at the
end of the request or at the end of its region. -/
inductive Tiles (c : Ctl) (write : Bool) : Nat → Nat → List Sg → Prop where
  | nil (a) : Tiles c write a 0 []
  | cons (sg : Sg) (sgl : List Sg) (r : Region) (l : Nat) : c.regions[sg.region]? = some r →
      sg.dmaAddr = r.info.base → 0 < sg.length → sg.length ≤ l → sg.offset + sg.length ≤ r.info.len →
      (sg.length = l ∨ sg.offset + sg.length = r.info.len) →
      sg.writeable = write → (write = true → r.info.prot.write = true) →
      Tiles c write (r.info.base + sg.offset + sg.length) (l - sg.length) sgl →
      Tiles c write (r.info.base + sg.offset) l (sg :: sgl)

/-- The guest addresses an entry stands for. -/
def Sg.bytes (sg : Sg) : List Nat := List.range' (sg.dmaAddr + sg.offset) sg.length

/-- Every byte of the range is mapped. -/
def AllMapped (c : Ctl) (a l : Nat) : Prop := ∀ x, a ≤ x → x < a + l → Mapped c x

/-- Some byte of the range is in a region that the client did not make writable. -/
def HasReadOnly (c : Ctl) (a l : Nat) : Prop :=
  ∃ x, a ≤ x ∧ x < a + l ∧ ∃ r ∈ c.regions, r.Covers x ∧ r.info.prot.write = false

/-! ## From walks to the specification -/

theorem fits_run (cfg : Cfg) (m s : Nat) (ops : List Op) (h : ∀ op ∈ ops, op.Bounded) :
    ∀ r ∈ (run cfg (create m s) ops).1.regions, r.Fits := by
  have := run_induction (cfg := cfg)
    (P := fun c => ∀ x ∈ c.geoms, x.1.base < U64 ∧ x.1.len < U64) (Q := Op.Bounded)
    (fun c op hc hq => by
      obtain ⟨_, _, h3⟩ := step_geoms cfg c op
      rcases h3 with h3 | ⟨os, q, r, rfl, hg, _, _, _, hn⟩
      · exact fun x hx => hc x (h3.subset hx)
      · rw [hg]
        intro x hx
        rcases List.mem_append.mp hx with hx | hx
        · exact hc x hx
        · simp only [List.mem_singleton] at hx
          subst hx
          simp only [Region.geom, hn.hbase, hn.hlen]
          exact ⟨hq.1, hq.2.1⟩) ops (create m s) (by simp [create, Ctl.geoms]) h
  intro r hr
  exact this r.geom (List.mem_map_of_mem hr)

theorem Walk.tiles {c : Ctl} {write a l ps a' l'} (h : Walk c.regions a l ps a' l') (h0 : l' = 0)
    (hf : ∀ r ∈ c.regions, r.Fits) (hb : ∀ p ∈ ps, ¬ p.Bad write) :
    Tiles c write a l (ps.map (Piece.sg write)) := by
  induction h with
  | nil a l => subst h0; exact .nil a
  | cons p l ps a' l' h1 hh hl hn hw ih =>
    have he := hh.end64 (hf _ (List.mem_of_getElem? h1))
    have hh' := hh
    unfold Hit at hh'
    have hpa : p.addr = p.reg.info.base + (Piece.sg write p).offset := by simp [Piece.sg]; omega
    rw [List.map_cons, hpa]
    refine .cons _ _ p.reg l h1 rfl ?_ ?_ ?_ ?_ rfl ?_ ?_
    · simp only [Piece.sg]; omega
    · simp only [Piece.sg]; omega
    · simp only [Piece.sg]; omega
    · simp only [Piece.sg]; omega
    · intro hwr
      have := hb p List.mem_cons_self
      unfold Piece.Bad at this
      simp only [hwr, true_and, Bool.not_eq_false] at this
      exact this
    · have := ih h0 (fun q hq => hb q (List.mem_cons_of_mem _ hq))
      rw [← hpa]; exact this

theorem Walk.le {rs a l ps a' l'} (h : Walk rs a l ps a' l') : a + l = a' + l' := by
  induction h with
  | nil => rfl
  | cons p l ps a' l' h1 hh hl hn hw ih => omega

theorem Walk.mono {rs a l ps a' l'} (h : Walk rs a l ps a' l') : a ≤ a' := by
  induction h with
  | nil => exact Nat.le_refl _
  | cons p l ps a' l' h1 hh hl hn hw ih => omega

theorem Walk.mapped {c : Ctl} {a l ps a' l'} (h : Walk c.regions a l ps a' l')
    (hf : ∀ r ∈ c.regions, r.Fits) : ∀ x, a ≤ x → x < a' → Mapped c x := by
  induction h with
  | nil => intro x h1 h2; omega
  | cons p l ps a' l' h1 hh hl hn hw ih =>
    intro x hx1 hx2
    have he := hh.end64 (hf _ (List.mem_of_getElem? h1))
    unfold Hit at hh
    by_cases hx : x < p.addr + p.len
    · exact ⟨p.reg, List.mem_of_getElem? h1, by omega, by omega⟩
    · exact ih x (by omega) hx2

theorem Walk.piece {rs a l ps a' l'} (h : Walk rs a l ps a' l') : ∀ p ∈ ps,
    rs[p.idx]? = some p.reg ∧ Hit p.reg p.addr ∧ a ≤ p.addr ∧ p.addr < a + l := by
  induction h with
  | nil => intro p hp; cases hp
  | cons p l ps a' l' h1 hh hl hn hw ih =>
    intro q hq
    rcases List.mem_cons.mp hq with rfl | hq
    · exact ⟨h1, hh, Nat.le_refl _, by omega⟩
    · obtain ⟨g1, g2, g3, g4⟩ := ih q hq
      exact ⟨g1, g2, by omega, by omega⟩

/-- Every byte between the start and the end of a walk is in one of its pieces. -/
theorem Walk.in_piece {rs a l ps a' l'} (h : Walk rs a l ps a' l') : ∀ x, a ≤ x → x < a' →
    ∃ p ∈ ps, Hit p.reg x ∧ rs[p.idx]? = some p.reg := by
  induction h with
  | nil => intro x h1 h2; omega
  | cons p l ps a' l' h1 hh hl hn hw ih =>
    intro x hx1 hx2
    by_cases hx : x < p.addr + p.len
    · unfold Hit at hh
      exact ⟨p, List.mem_cons_self, ⟨by omega, by omega⟩, h1⟩
    · obtain ⟨q, hq, g⟩ := ih x (by omega) hx2
      exact ⟨q, List.mem_cons_of_mem _ hq, g⟩

theorem Stuck.unmapped {c : Ctl} {a l : Nat} (h : Stuck c.regions a l) (hl : 0 < l)
    (hw : ∀ r ∈ c.regions, r.NoWrap) : ¬ Mapped c a := by
  rcases h with h | h
  · omega
  · intro ⟨r, hr, hc⟩
    exact h r hr ((hit_iff (hw r hr)).mpr hc)

theorem hitOnce_of {c : Ctl} (hn : NoShare c) (hf : ∀ r ∈ c.regions, r.Fits) : HitOnce c.regions := by
  intro i j r s a hi hj hr hs
  exact hn i j r s a hi hj (hr.covers (hf r (List.mem_of_getElem? hi)))
    (hs.covers (hf s (List.mem_of_getElem? hj)))

/-! ## C04 -/

/-- C04: in every reachable table, for every request that does not run past `2^64` and whatever the
hint, a successful translation tiles the range exactly, within the number of entries supplied. -/
theorem C04_tiling (cfg : Cfg) (m s : Nat) (ops : List Op) (h : ∀ op ∈ ops, op.Bounded)
    (hint addr len max : Nat) (write : Bool) (hh : hint < m) (hw : addr + len < U64) (sgl : List Sg)
    (hr : (addrToSgl (run cfg (create m s) ops).1 hint addr len max write).1 = .ok sgl) :
    Tiles (run cfg (create m s) ops).1 write addr len sgl ∧ sgl.length ≤ max := by
  have hf := fits_run cfg m s ops h
  have hm := (max_run cfg ops (create m s)).1
  generalize (run cfg (create m s) ops).1 = c at *
  obtain ⟨ps, a', l', hwk, hst, ha⟩ := addrToSgl_spec c hint addr len max write
    (by rw [hm]; exact hh) hw
  rw [hr] at ha
  simp only [answer] at ha
  obtain ⟨hb, h0, hle, rfl⟩ := ha
  rw [List.take_of_length_le hle] at hb
  exact ⟨hwk.tiles h0 hf hb, by simpa using hle⟩

/-- Consequence: the guest addresses of the entries, in order, are exactly `addr, …, addr+len-1`. -/
theorem C04_bytes {c : Ctl} {write : Bool} {addr len : Nat} {sgl : List Sg}
    (h : Tiles c write addr len sgl) : sgl.flatMap Sg.bytes = List.range' addr len := by
  induction h with
  | nil => rfl
  | cons sg sgl r l h1 h2 h3 h4 h5 h6 h7 h8 h9 ih =>
    rw [List.flatMap_cons, ih, Sg.bytes, h2]
    have : l = sg.length + (l - sg.length) := by omega
    conv => rhs; rw [this]
    rw [← List.range'_append_1]

/-- Three regions mapped out of order; a range over all of them. -/
def hist2 : List Op := [mapAt 0x3000 0x1000, mapAt 0x1000 0x1000, mapFd 0x2000 0x1000 0 4]

example : (∀ op ∈ hist2, op.Bounded ∧ op.NoWrap) ∧
    (addrToSgl (run cfg0 (create 64 0x10000) hist2).1 7 0x1800 0x2000 8 true).1 =
      .ok [⟨0x1000, 1, 0x800, 0x800, true⟩, ⟨0x2000, 2, 0x1000, 0, true⟩, ⟨0x3000, 0, 0x800, 0, true⟩] := by
  refine ⟨?_, by decide⟩
  intro op hop
  simp only [hist2, List.mem_cons, List.not_mem_nil, or_false] at hop
  rcases hop with rfl | rfl | rfl <;>
    simp [mapAt, mapFd, Op.Bounded, Op.NoWrap, MapReq.Bounded, U64, U32]

/-- Without the restriction C04 is false: the fast path compares a wrapped end address, so a request of
almost `2^64` bytes yields one entry far longer than its region. -/
theorem C04_violated :
    ∃ (addr len : Nat), addr < U64 ∧ len < U64 ∧
      ∃ sgl, (addrToSgl (run cfg0 (create 64 0x10000) hist2).1 1 addr len 1 true).1 = .ok sgl ∧
        ¬ Tiles (run cfg0 (create 64 0x10000) hist2).1 true addr len sgl := by
  refine ⟨0x1800, U64 - 0x100, by decide, by decide,
    [⟨0x1000, 1, U64 - 0x100, 0x800, true⟩], by decide +kernel, ?_⟩
  intro h
  generalize 0x1800 = a at h
  cases h with
  | cons sg sgl r l h1 h2 h3 h4 h5 h6 h7 h8 h9 =>
    have : (run cfg0 (create 64 0x10000) hist2).1.regions[1]?.map (fun r => r.info.len) = some 0x1000 := by
      decide
    rw [h1] at this
    simp only [Option.map_some, Option.some.injEq] at this
    rw [this] at h5
    simp [U64] at h5

/-! ## C05 -/

/-- C05 for reads: the answer is `ENOENT` exactly when some byte is unmapped, and `EACCES` never. -/
theorem C05_read (cfg : Cfg) (m s : Nat) (ops : List Op) (h : ∀ op ∈ ops, op.Bounded ∧ op.NoWrap)
    (hint addr len max : Nat) (hh : hint < m) (hw : addr + len < U64) :
    let o := (addrToSgl (run cfg (create m s) ops).1 hint addr len max false).1
    (o = .err ENOENT ↔ ¬ AllMapped (run cfg (create m s) ops).1 addr len) ∧
    o ≠ .err EACCES := by
  intro o
  have hf := fits_run cfg m s ops (fun op hop => (h op hop).1)
  have hi := inv_run cfg m s ops (fun op hop => (h op hop).2)
  have hm := (max_run cfg ops (create m s)).1
  have hnw : ∀ r ∈ (run cfg (create m s) ops).1.regions, r.NoWrap :=
    fun r hr => hi.nowrap r.geom (List.mem_map_of_mem hr)
  simp only [o]; clear o
  generalize (run cfg (create m s) ops).1 = c at *
  obtain ⟨ps, a', l', hwk, hst, ha⟩ := addrToSgl_spec c hint addr len max false
    (by rw [hm]; exact hh) hw
  have hle := hwk.le
  have hnb : ∀ p : Piece, ¬ p.Bad false := fun p hp => by cases hp.1
  have hnbe : ∀ e, ¬ (e = EACCES ∧ ∃ p ∈ ps.take max, p.Bad false) := fun e ⟨_, p, _, hp⟩ => hnb p hp
  constructor
  · constructor
    · intro ho
      rw [ho] at ha
      simp only [answer] at ha
      rcases ha with ha | ha
      · exact absurd ha (hnbe _)
      · intro hall
        exact hst.unmapped ha.2.2 hnw (hall a' hwk.mono (by omega))
    · intro hn
      have hl' : 0 < l' := by
        apply Nat.pos_of_ne_zero
        intro h0
        apply hn
        intro x hx1 hx2
        exact hwk.mapped hf x hx1 (by omega)
      generalize hg : (addrToSgl c hint addr len max false).1 = o at ha
      cases o <;> simp only [answer] at ha
      · omega
      · omega
      · rcases ha with ha | ha
        · exact absurd ha (hnbe _)
        · rw [ha.1]
  · intro ho
    rw [ho] at ha
    simp only [answer] at ha
    rcases ha with ha | ha
    · exact hnbe _ ⟨rfl, ha.2⟩
    · exact absurd ha.1 (by decide)

/-- C05 in general: each error is justified, and a range with an unmapped byte never translates. -/
theorem C05_errors (cfg : Cfg) (m s : Nat) (ops : List Op) (h : ∀ op ∈ ops, op.Bounded ∧ op.NoWrap)
    (hint addr len max : Nat) (write : Bool) (hh : hint < m) (hw : addr + len < U64) :
    let c := (run cfg (create m s) ops).1
    let o := (addrToSgl c hint addr len max write).1
    (o = .err ENOENT → ¬ AllMapped c addr len) ∧
    (o = .err EACCES → write = true ∧ HasReadOnly c addr len) ∧
    (¬ AllMapped c addr len → o = .err ENOENT ∨ o = .err EACCES) ∧
    (∀ e, o = .err e → e = ENOENT ∨ e = EACCES) ∧
    (∀ f, o ≠ .fault f) := by
  intro c o
  have hf := fits_run cfg m s ops (fun op hop => (h op hop).1)
  have hi := inv_run cfg m s ops (fun op hop => (h op hop).2)
  have hm := (max_run cfg ops (create m s)).1
  have hnw : ∀ r ∈ (run cfg (create m s) ops).1.regions, r.NoWrap :=
    fun r hr => hi.nowrap r.geom (List.mem_map_of_mem hr)
  simp only [o, c]; clear o c
  generalize (run cfg (create m s) ops).1 = c at *
  obtain ⟨ps, a', l', hwk, hst, ha⟩ := addrToSgl_spec c hint addr len max write
    (by rw [hm]; exact hh) hw
  have hle := hwk.le
  generalize (addrToSgl c hint addr len max write).1 = o at ha
  refine ⟨?_, ?_, ?_, ?_, ?_⟩
  · rintro rfl
    simp only [answer] at ha
    rcases ha with ha | ha
    · exact absurd ha.1 (by decide)
    · intro hall
      exact hst.unmapped ha.2.2 hnw (hall a' hwk.mono (by omega))
  · rintro rfl
    simp only [answer] at ha
    rcases ha with ⟨_, p, hp, hb⟩ | ha
    · have hp' := hwk.piece p (List.mem_of_mem_take hp)
      refine ⟨hb.1, p.addr, hp'.2.2.1, hp'.2.2.2, p.reg, List.mem_of_getElem? hp'.1, ?_, hb.2⟩
      exact hp'.2.1.covers (hf _ (List.mem_of_getElem? hp'.1))
    · exact absurd ha.1 (by decide)
  · intro hn
    have hl' : 0 < l' := by
      apply Nat.pos_of_ne_zero
      intro h0
      apply hn
      intro x hx1 hx2
      exact hwk.mapped hf x hx1 (by omega)
    cases o <;> simp only [answer] at ha
    · omega
    · omega
    · rcases ha with ha | ha
      · right; rw [ha.1]
      · left; rw [ha.1]
  · rintro e rfl
    simp only [answer] at ha
    rcases ha with ha | ha
    · exact Or.inr ha.1
    · exact Or.inl ha.1
  · rintro f rfl
    exact ha

/-- C05, entry counts: for every fully mapped range there is one number of entries `n`, the same for
every hint, number of supplied entries and direction of access, such that the call succeeds with exactly
`n` entries when at least `n` are supplied, and otherwise reports `n`; the only other outcome is
`EACCES`, which occurs for a write when a region within reach is read-only, and certainly occurs when
enough entries are supplied. -/
theorem C05_count (cfg : Cfg) (m s : Nat) (ops : List Op) (h : ∀ op ∈ ops, op.Bounded ∧ op.NoWrap)
    (addr len : Nat) (hw : addr + len < U64)
    (hall : AllMapped (run cfg (create m s) ops).1 addr len) :
    ∃ n, ∀ (hint max : Nat) (write : Bool), hint < m →
      let o := (addrToSgl (run cfg (create m s) ops).1 hint addr len max write).1
      ((write = false ∨ ¬ HasReadOnly (run cfg (create m s) ops).1 addr len) →
        (n ≤ max → ∃ sgl, o = .ok sgl ∧ sgl.length = n) ∧ (max < n → o = .more n)) ∧
      (write = true → HasReadOnly (run cfg (create m s) ops).1 addr len →
        (n ≤ max → o = .err EACCES) ∧ (max < n → o = .err EACCES ∨ o = .more n)) := by
  have hf := fits_run cfg m s ops (fun op hop => (h op hop).1)
  have hi := inv_run cfg m s ops (fun op hop => (h op hop).2)
  have hm := (max_run cfg ops (create m s)).1
  have hnw : ∀ r ∈ (run cfg (create m s) ops).1.regions, r.NoWrap :=
    fun r hr => hi.nowrap r.geom (List.mem_map_of_mem hr)
  have hns := noshare_of_sep hi.sep
  generalize (run cfg (create m s) ops).1 = c at *
  obtain ⟨qs, b', k', hwk0, hst0⟩ := exists_walk c.regions len addr
  have hle0 := hwk0.le
  have hk0 : k' = 0 := by
    apply Classical.byContradiction
    intro h0
    exact hst0.unmapped (by omega) hnw (hall b' hwk0.mono (by omega))
  refine ⟨qs.length, fun hint max write hh => ?_⟩
  obtain ⟨ps, a', l', hwk, hst, ha⟩ := addrToSgl_spec c hint addr len max write
    (by rw [hm]; exact hh) hw
  obtain ⟨rfl, rfl, rfl⟩ := hwk.unique (hitOnce_of hns hf) hst hwk0 hst0
  generalize (addrToSgl c hint addr len max write).1 = o at ha
  simp only
  refine ⟨?_, ?_⟩
  · intro hok
    have hnb : ¬ ∃ p ∈ ps.take max, p.Bad write := by
      rintro ⟨p, hp, hb⟩
      rcases hok with rfl | hok
      · cases hb.1
      · have hp' := hwk.piece p (List.mem_of_mem_take hp)
        exact hok ⟨p.addr, hp'.2.2.1, hp'.2.2.2, p.reg, List.mem_of_getElem? hp'.1,
          hp'.2.1.covers (hf _ (List.mem_of_getElem? hp'.1)), hb.2⟩
    cases o <;> simp only [answer] at ha
    · refine ⟨fun _ => ⟨_, rfl, ?_⟩, fun hlt => by omega⟩
      rw [ha.2.2.2]; simp
    · refine ⟨fun hlt => by omega, fun _ => ?_⟩
      rw [ha.2.2.2]
    · rcases ha with ha | ha
      · exact absurd ha.2 hnb
      · omega
  · rintro rfl ⟨x, hx1, hx2, r, hr, hcov, hro⟩
    refine ⟨fun hle => ?_, fun hlt => ?_⟩
    · obtain ⟨p, hp, hph, hpi⟩ := hwk.in_piece x hx1 (by omega)
      have hbad : ∃ p ∈ ps.take max, p.Bad true := by
        refine ⟨p, by rw [List.take_of_length_le hle]; exact hp, rfl, ?_⟩
        obtain ⟨j, hj⟩ := List.getElem?_of_mem hr
        have hpc := hph.covers (hf _ (List.mem_of_getElem? hpi))
        have := hns _ _ _ _ _ hpi hj hpc hcov
        rw [this, hj] at hpi
        cases hpi
        exact hro
      cases o <;> simp only [answer] at ha
      · obtain ⟨p, hp, hb⟩ := hbad; exact absurd hb (ha.1 p hp)
      · obtain ⟨p, hp, hb⟩ := hbad; exact absurd hb (ha.1 p hp)
      · rcases ha with ha | ha
        · rw [ha.1]
        · omega
    · cases o <;> simp only [answer] at ha
      · omega
      · right; rw [ha.2.2.2]
      · rcases ha with ha | ha
        · left; rw [ha.1]
        · omega

example : AllMapped (run cfg0 (create 64 0x10000) hist2).1 0x1800 0x2000 ∧
    (addrToSgl (run cfg0 (create 64 0x10000) hist2).1 0 0x1800 0x2000 2 true).1 = .more 3 ∧
    (addrToSgl (run cfg0 (create 64 0x10000) hist2).1 0 0x1800 0x3000 9 true).1 = .err ENOENT := by
  refine ⟨?_, by decide, by decide⟩
  have hr : (run cfg0 (create 64 0x10000) hist2).1.regions.map (fun r => (r.info.base, r.info.len)) =
    [(0x3000, 0x1000), (0x1000, 0x1000), (0x2000, 0x1000)] := by decide
  intro x hx1 hx2
  have key : ∀ b, (b, 0x1000) ∈ [(0x3000, 0x1000), (0x1000, 0x1000), (0x2000, 0x1000)] →
      b ≤ x → x < b + 0x1000 → Mapped (run cfg0 (create 64 0x10000) hist2).1 x := by
    intro b hb h1 h2
    rw [← hr] at hb
    obtain ⟨r, hm, he⟩ := List.mem_map.mp hb
    simp only [Prod.mk.injEq] at he
    exact ⟨r, hm, by rw [he.1]; exact h1, by rw [he.1, he.2]; exact h2⟩
  by_cases h1 : x < 0x2000
  · exact key 0x1000 (by simp) (by omega) (by omega)
  · by_cases h2 : x < 0x3000
    · exact key 0x2000 (by simp) (by omega) (by omega)
    · exact key 0x3000 (by simp) (by omega) (by omega)

/-! ## C06 -/

/-- C06: for a range that does not run past `2^64` the result does not depend on the hint; and the hint
never leaves the table, so it is always a legal index. -/
theorem C06_hint_independent (cfg : Cfg) (m s : Nat) (ops : List Op)
    (h : ∀ op ∈ ops, op.Bounded ∧ op.NoWrap) (h1 h2 addr len max : Nat) (write : Bool)
    (hh1 : h1 < m) (hh2 : h2 < m) (hw : addr + len < U64) :
    (addrToSgl (run cfg (create m s) ops).1 h1 addr len max write).1 =
      (addrToSgl (run cfg (create m s) ops).1 h2 addr len max write).1 := by
  have hf := fits_run cfg m s ops (fun op hop => (h op hop).1)
  have hi := inv_run cfg m s ops (fun op hop => (h op hop).2)
  have hm := (max_run cfg ops (create m s)).1
  have hns := noshare_of_sep hi.sep
  generalize (run cfg (create m s) ops).1 = c at *
  obtain ⟨ps, a, l, w1, s1, a1⟩ := addrToSgl_spec c h1 addr len max write (by rw [hm]; exact hh1) hw
  obtain ⟨qs, b, k, w2, s2, a2⟩ := addrToSgl_spec c h2 addr len max write (by rw [hm]; exact hh2) hw
  obtain ⟨rfl, rfl, rfl⟩ := w1.unique (hitOnce_of hns hf) s1 w2 s2
  exact answer_det a1 a2

/-- The hint left behind is again below the size of the table, for every request whatsoever. -/
theorem C06_hint_in_range (cfg : Cfg) (m s : Nat) (ops : List Op) (hint addr len max : Nat) (write : Bool)
    (hh : hint < m) :
    (addrToSgl (run cfg (create m s) ops).1 hint addr len max write).2 < m := by
  have hl := liminv_run cfg m s ops
  have hm := (max_run cfg ops (create m s)).1
  generalize (run cfg (create m s) ops).1 = c at *
  have hslow : (slowPath c hint addr len max write).2 < m := by
    unfold slowPath
    split
    · rename_i sg sgl hs
      obtain ⟨ps, a', l', hwk, _, ha⟩ := addrSgSplit_spec c addr len max write
      rw [hs] at ha
      simp only [answer] at ha
      obtain ⟨_, _, _, he⟩ := ha
      cases ps with
      | nil => simp at he
      | cons p ps =>
        simp only [List.map_cons, List.cons.injEq] at he
        obtain ⟨rfl, _⟩ := he
        have := (hwk.piece p List.mem_cons_self).1
        have hlt := (List.getElem?_eq_some_iff.mp this).1
        have := hl.count
        rw [hm] at this
        simp only [Piece.sg, create] at *
        omega
    · exact hh
  unfold addrToSgl
  split
  · split
    · exact hslow
    · exact hh
  · split
    · split
      · exact hh
      · exact hh
    · exact hslow

/-- For ranges that run past `2^64` the result does depend on the hint. -/
theorem C06_violated :
    ∃ (addr len h1 h2 : Nat), addr < U64 ∧ len < U64 ∧ h1 < 64 ∧ h2 < 64 ∧
      (addrToSgl (run cfg0 (create 64 0x10000) hist2).1 h1 addr len 1 true).1 ≠
      (addrToSgl (run cfg0 (create 64 0x10000) hist2).1 h2 addr len 1 true).1 := by
  exact ⟨0x2800, U64 - 0x100, 2, 1, by decide, by decide, by decide, by decide, by decide +kernel⟩

end Verif.Dma
