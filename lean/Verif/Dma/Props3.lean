import Verif.Dma.Props2

/-!
# C07 – C10: local addresses, descriptors, callbacks, stability of entries
-/

namespace Verif.Dma
open Verif

/-! ## C07 -/

/-- What the operating system was asked to map for a file-backed region. -/
def MapG (x : Geom) : Prop :=
  x.2.1 ≠ none → ∃ k, k ≤ 64 ∧ x.1.pageSize = 2 ^ k ∧ 0 < x.1.mapBase ∧
    x.1.mapBase + x.1.mapLen ≤ U64 ∧
    x.1.mapLen = (x.1.len + 2 ^ k - 1) % U64 / 2 ^ k * 2 ^ k ∧ 0 < x.1.mapLen ∧
    x.1.vaddr = x.1.mapBase + x.2.2 % 2 ^ k

theorem mapg_run (cfg : Cfg) (m s : Nat) (ops : List Op) (h : ∀ op ∈ ops, op.OSOk ∧ op.Bounded) :
    ∀ x ∈ (run cfg (create m s) ops).1.geoms, MapG x := by
  refine run_induction (cfg := cfg) (P := fun c => ∀ x ∈ c.geoms, MapG x)
    (Q := fun op => op.OSOk ∧ op.Bounded) ?_ ops (create m s) (by simp [create, Ctl.geoms]) h
  intro c op hc hq
  obtain ⟨_, _, h3⟩ := step_geoms cfg c op
  rcases h3 with h3 | ⟨os, q, r, rfl, hg, _, _, _, hn⟩
  · exact fun x hx => hc x (h3.subset hx)
  · rw [hg]
    intro x hx
    rcases List.mem_append.mp hx with hx | hx
    · exact hc x hx
    · simp only [List.mem_singleton] at hx
      subst hx
      intro hfd
      simp only [Region.geom] at hfd ⊢
      obtain ⟨y, hy⟩ := Option.ne_none_iff_exists'.mp hfd
      rw [hn.hfd] at hy
      obtain ⟨k, k1, k2, k3, k4, k5, _, k7, k8⟩ := hn.mapping hq.1 hq.2.2.2.1 hy
      exact ⟨k, k1, k2, k3, k4, by rw [hn.hlen]; exact k5, k8, by rw [hn.hoffset]; exact k7⟩

/-- Position in the client's file of the local address `va` of region `r`: the library maps the file
from the page boundary at or below the requested offset. -/
def Region.filePos (r : Region) (va : Nat) : Nat :=
  va - r.info.mapBase + r.offset / r.info.pageSize * r.info.pageSize

theorem Tiles.mem {c : Ctl} {write a l sgl} (h : Tiles c write a l sgl) : ∀ sg ∈ sgl, ∃ r,
    c.regions[sg.region]? = some r ∧ sg.dmaAddr = r.info.base ∧ 0 < sg.length ∧
    sg.offset + sg.length ≤ r.info.len := by
  induction h with
  | nil => intro sg hsg; cases hsg
  | cons sg sgl r l h1 h2 h3 h4 h5 h6 h7 h8 h9 ih =>
    intro x hx
    rcases List.mem_cons.mp hx with rfl | hx
    · exact ⟨r, h1, h2, h3, h5⟩
    · exact ih x hx

/-- C07: in every reachable table, an entry obtained by translation and then made accessible gives a
buffer inside the mapping of its region, at the file position that belongs to the guest address —
provided the client gave the region a page-aligned file offset (more exactly: provided the misalignment
fits into the slack at the end of the last page). -/
theorem C07_window (cfg : Cfg) (m s : Nat) (ops : List Op) (h : ∀ op ∈ ops, op.OSOk ∧ op.Bounded)
    (hint addr len max : Nat) (write : Bool) (hh : hint < m) (hw : addr + len < U64) (sgl : List Sg)
    (hr : (addrToSgl (run cfg (create m s) ops).1 hint addr len max write).1 = .ok sgl)
    (sg : Sg) (hsg : sg ∈ sgl) (r : Region)
    (hreg : (run cfg (create m s) ops).1.regions[sg.region]? = some r)
    (hal : r.offset % r.info.pageSize = 0 ∨
      r.offset % r.info.pageSize + r.info.len ≤ r.info.mapLen)
    (va n : Nat) (hget : sgGet (run cfg (create m s) ops).1 sg = .ok (va, n)) :
    r.info.mapBase ≤ va ∧ va + n ≤ r.info.mapBase + r.info.mapLen ∧ n = sg.length ∧
    r.filePos va = r.offset + (sg.dmaAddr + sg.offset - r.info.base) := by
  have hmg := mapg_run cfg m s ops h
  have hcon := (inv2_run cfg m s ops h).consistent
  have hfits := fits_run cfg m s ops (fun op hop => (h op hop).2)
  have htile := (C04_tiling cfg m s ops (fun op hop => (h op hop).2) hint addr len max write hh hw sgl hr).1
  generalize (run cfg (create m s) ops).1 = c at *
  obtain ⟨r', hr', hd, hpos, hlen⟩ := htile.mem sg hsg
  rw [hreg] at hr'; cases hr'
  have hmem := List.mem_of_getElem? hreg
  unfold sgGet at hget
  rw [hreg] at hget
  simp only at hget
  split at hget
  · cases hget
  · rename_i hv
    simp only [Res.ok.injEq, Prod.mk.injEq] at hget
    obtain ⟨hva, hn⟩ := hget
    have hfd : r.fd ≠ none := (hcon r hmem).mp hv
    obtain ⟨k, k1, k2, k3, k4, k5, k6, k7⟩ := hmg r.geom (List.mem_map_of_mem hmem) hfd
    simp only [Region.geom] at k2 k3 k4 k5 k6 k7
    have hpow : 0 < 2 ^ k := Nat.two_pow_pos k
    -- the mapping is at least as long as the region
    have hml : r.info.len ≤ r.info.mapLen := by
      rw [k5]
      by_cases hlt : r.info.len + 2 ^ k - 1 < U64
      · rw [Nat.mod_eq_of_lt hlt]
        have h1 := Nat.div_add_mod (r.info.len + 2 ^ k - 1) (2 ^ k)
        have h2 := Nat.mod_lt (r.info.len + 2 ^ k - 1) hpow
        rw [Nat.mul_comm] at h1
        omega
      · exfalso
        rw [k5] at k6
        have hle := (hfits r hmem).2
        have hk2 : 2 ^ k ≤ U64 := by rw [U64_eq]; exact Nat.pow_le_pow_right (by decide) k1
        have e1 : (r.info.len + 2 ^ k - 1) % U64 = r.info.len + 2 ^ k - 1 - U64 := by
          rw [Nat.mod_eq_sub_mod (by omega), Nat.mod_eq_of_lt (by omega)]
        rw [e1, Nat.div_eq_of_lt (by omega)] at k6
        simp at k6
    rw [k2] at hal
    have hal' : r.offset % 2 ^ k + r.info.len ≤ r.info.mapLen := by
      rcases hal with h0 | h0
      · rw [h0]; omega
      · exact h0
    have hadd : add64 r.info.vaddr sg.offset = r.info.vaddr + sg.offset := by
      unfold add64
      apply Nat.mod_eq_of_lt
      omega
    rw [hadd] at hva
    have hdm := Nat.div_add_mod r.offset (2 ^ k)
    rw [Nat.mul_comm] at hdm
    refine ⟨by omega, by omega, hn.symm, ?_⟩
    unfold Region.filePos
    rw [k2, hd]
    omega

/-- A file-backed region at a page-aligned offset, and an entry in its middle. -/
example :
    let c := (run cfg0 (create 64 0x10000) [mapFd 0x5000 0x1800 0x3000 4]).1
    (addrToSgl c 0 0x6000 0x700 1 true).1 = .ok [⟨0x5000, 0, 0x700, 0x1000, true⟩] ∧
    sgGet c ⟨0x5000, 0, 0x700, 0x1000, true⟩ = .ok (0x70001000, 0x700) ∧
    c.regions[0]?.map (fun r => (r.offset % r.info.pageSize, r.info.mapBase, r.info.mapLen)) =
      some (0, 0x70000000, 0x2000) := by
  decide

/-- With an unaligned offset the mapping is too short: the buffer of a valid entry ends after the
mapping. -/
theorem C07_violated :
    ∃ ops : List Op, (∀ op ∈ ops, op.OSOk ∧ op.Bounded ∧ op.NoWrap) ∧
      ∃ sg va n r, (addrToSgl (run cfg0 (create 64 0x10000) ops).1 0 0x1000 0x1000 1 true).1 = .ok [sg] ∧
        sgGet (run cfg0 (create 64 0x10000) ops).1 sg = .ok (va, n) ∧
        (run cfg0 (create 64 0x10000) ops).1.regions[sg.region]? = some r ∧
        r.info.mapBase + r.info.mapLen < va + n := by
  refine ⟨[mapFd 0x1000 0x1000 0x800 4], ?_, ⟨0x1000, 0, 0x1000, 0, true⟩, 0x70000800, 0x1000,
    { info := { base := 0x1000, len := 0x1000, vaddr := 0x70000800, mapBase := 0x70000000,
                mapLen := 0x1000, pageSize := 0x1000, prot := ⟨true, true⟩ },
      fd := some 4, offset := 0x800, dirty := none }, by decide, by decide, by decide, by decide⟩
  intro op hop
  simp only [List.mem_cons, List.not_mem_nil, or_false] at hop
  subst hop
  exact ⟨os0_ok, by simp [mapFd, Op.Bounded, MapReq.Bounded, U64, U32], by simp [mapFd, Op.NoWrap, U64]⟩

/-! ## C08 -/

/-- Number of tracked regions that hold descriptor `x`. -/
def holders (c : Ctl) (x : Fd) : Nat := (c.regions.map (·.fd)).count (some x)

/-- Number of `close` calls on `x` in a trace. -/
def closes (evs : List Ev) (x : Fd) : Nat := evs.count (.close x)

/-- Descriptors that come with a request. -/
def Op.fds : Op → List Fd
  | .map _ q => q.fds
  | _ => []

/-- Descriptors still in the message after the request: they are closed with it
(`free_msg`, `lib/libvfio-user.c:1262-1266`). -/
def Reply.left : Reply → List (Option Fd)
  | .map _ l => l
  | _ => []

/-- `close` calls on `x` during a history: by the handlers and when the messages are freed. -/
def closesRun (cfg : Cfg) (x : Fd) : Ctl → List Op → Nat
  | _, [] => 0
  | c, op :: ops =>
    closes (step cfg c op).2.2 x + (step cfg c op).2.1.left.count (some x) +
      closesRun cfg x (step cfg c op).1 ops

/-- The two situations in which the code mishandles the descriptor do not arise in this step: the
mapping itself succeeds, and the request does not repeat an existing region. -/
def Op.Clean (c : Ctl) : Op → Prop
  | .map os q => ∀ fd, q.fds.head? = some fd →
      (∀ b, os.blksize fd = some b →
        ∃ base, os.mmap ((q.size + mapPage os b - 1) % U64 / mapPage os b * mapPage os b)
          (q.offset / mapPage os b * mapPage os b) = .ok base) ∧
      ¬ ∃ r ∈ c.regions, r.info.base = q.addr ∧ r.info.len = q.size ∧ r.offset = q.offset ∧
        SameFile os r.fd q.fds.head? ∧ r.info.prot = q.attr.prot
  | _ => True

def CleanRun (cfg : Cfg) : Ctl → List Op → Prop
  | _, [] => True
  | c, op :: ops => op.Clean c ∧ CleanRun cfg (step cfg c op).1 ops

theorem holders_geoms (c : Ctl) (x : Fd) : holders c x = (c.geoms.map (·.2.1)).count (some x) := by
  simp [holders, Ctl.geoms, Region.geom, Function.comp_def]

theorem closes_dropEvs (u : Bool) (r : Region) (x : Fd) :
    closes (dropEvs u r) x = [r.fd].count (some x) := by
  unfold closes dropEvs
  rw [List.count_append]
  have h1 : (if u = true then [Ev.unregister r.info] else []).count (.close x) = 0 := by
    cases u <;> simp
  rw [h1]
  cases hfd : r.fd with
  | none => simp
  | some y => simp [List.count_cons]

/-- An error from `addRegion` closes the descriptor itself only when `mmap` failed. -/
theorem addRegion_close {os c addr size fd offset prot c' e ev} {x : Fd}
    (h : addRegion os c addr size (some fd) offset prot = (c', .err e, ev)) (hx : ev = [.close x]) :
    ∃ ps e', pageSizeFor os (some fd) = .ok ps ∧
      os.mmap (roundUp size ps) (roundDown offset ps) = .error e' := by
  unfold addRegion at h
  split at h
  · simp only [Prod.mk.injEq] at h; rw [hx] at h; simp at h
  · split at h
    · simp only [Prod.mk.injEq] at h; rw [hx] at h; simp at h
    · simp only [Prod.mk.injEq] at h; simp at h
    · split at h
      · simp only [Prod.mk.injEq] at h; rw [hx] at h; simp at h
      · split at h
        · simp only [Prod.mk.injEq] at h; rw [hx] at h; simp at h
        · simp only [Prod.mk.injEq] at h; simp at h
        · rename_i ps hps
          simp only at h
          split at h
          · simp only [Prod.mk.injEq] at h; rw [hx] at h; simp at h
          · simp only [Prod.mk.injEq] at h; simp at h
          · rename_i r1 hr1
            have hr1' : r1.info.len = size ∧ r1.info.pageSize = ps ∧ r1.offset = offset := by
              split at hr1
              · obtain ⟨n, _, rfl, _⟩ := startOnRegion_ok hr1; exact ⟨rfl, rfl, rfl⟩
              · cases hr1; exact ⟨rfl, rfl, rfl⟩
            split at h
            · rename_i e' hm
              unfold mapRegion at hm
              simp only [hr1'.1, hr1'.2.1, hr1'.2.2] at hm
              split at hm
              · rename_i e'' hmm; exact ⟨ps, e'', hps, hmm⟩
              · cases hm
            · simp only [Prod.mk.injEq] at h; simp at h

/-- Conservation in one step. -/
theorem conserve_step (cfg : Cfg) (c : Ctl) (op : Op) (x : Fd) (hos : op.OSOk) (hb : op.Bounded)
    (hc : op.Clean c) :
    holders (step cfg c op).1 x + closes (step cfg c op).2.2 x + (step cfg c op).2.1.left.count (some x) =
      holders c x + op.fds.count x := by
  have hmap : ∀ l : List Fd, (l.map some).count (some x) = l.count x := by
    intro l
    induction l with
    | nil => rfl
    | cons a l ih => simp [List.count_cons, ih]
  have hset : ∀ l : List Fd, ((l.map some).set 0 none).count (some x) + [l.head?].count (some x) = l.count x := by
    intro l
    cases l with
    | nil => simp
    | cons a l => simp [List.count_cons, hmap]
  cases op with
  | map os q =>
    simp only [step, Op.fds, Reply.left]
    have h := handleMap_case os cfg.hasReg c q
    have hcl : closes (closeEv q.fds.head?) x = [q.fds.head?].count (some x) := by
      cases q.fds.head? <;> simp [closeEv, closes, List.count_cons]
    generalize handleMap os cfg.hasReg c q = o at h
    cases h with
    | flags e _ _ => simp [closes, hmap]
    | fail e ev _ hadd hev =>
      have hev0 : ev = [] := by
        rcases hev with hev | ⟨y, hy, hev⟩
        · exact hev
        · exfalso
          rw [hy] at hadd
          obtain ⟨ps, e', hps, hmm⟩ := addRegion_close hadd hev
          obtain ⟨h1, _⟩ := hc y hy
          simp only [pageSizeFor] at hps
          cases hbl : os.blksize y with
          | none => rw [hbl] at hps; cases hps
          | some b =>
            rw [hbl] at hps
            simp only [Res.ok.injEq] at hps
            have hmp : mapPage os b = ps := by
              rw [← hps]; unfold mapPage
              split
              · rename_i hle; exact (Nat.max_eq_left hle).symm
              · rename_i hle; exact (Nat.max_eq_right (by omega)).symm
            obtain ⟨base, hok⟩ := h1 b hbl
            obtain ⟨k, hk64, hpk⟩ := pow2_page hos (fd := some y) (ps := ps) (by simp [pageSizeFor, hbl, hps])
            rw [hmp] at hok
            have hru : (q.size + ps - 1) % U64 / ps * ps = roundUp q.size ps := by
              rw [hpk]; unfold roundUp; rw [roundDown_pow2_mod _ hk64]
            have hrd : q.offset / ps * ps = roundDown q.offset ps := by
              rw [hpk, roundDown_pow2 hb.2.2.1 hk64]
            rw [hru, hrd, hmm] at hok
            cases hok
      subst hev0
      simp only [List.nil_append, hcl]
      have := hset q.fds
      omega
    | again idx r _ hr h1 h2 h3 h4 h5 _ =>
      cases hfd : q.fds.head? with
      | none =>
        have : q.fds = [] := List.head?_eq_none_iff.mp hfd
        rw [this]
        have : closes (if cfg.hasReg = true then [Ev.register r.info] else []) x = 0 := by
          unfold closes; cases cfg.hasReg <;> simp
        rw [this]; simp
      | some y =>
        exact absurd ⟨r, List.mem_of_getElem? hr, h1, h2, h3, (sameFile_iff _ _ _).mp h4, h5⟩ (hc y hfd).2
    | new r _ _ _ _ hn _ =>
      have hev : closes ((if q.fds.head? = none then [] else [Ev.mmap r.info.mapBase r.info.mapLen]) ++
          (if cfg.hasReg = true then [Ev.register r.info] else [])) x = 0 := by
        unfold closes
        rw [List.count_append]
        have h1 : (if q.fds.head? = none then [] else [Ev.mmap r.info.mapBase r.info.mapLen]).count
          (Ev.close x) = 0 := by split <;> simp
        have h2 : (if cfg.hasReg = true then [Ev.register r.info] else []).count (Ev.close x) = 0 := by
          split <;> simp
        rw [h1, h2]
      dsimp only
      rw [hev]
      have hh : holders { c with regions := c.regions ++ [r] } x = holders c x + [q.fds.head?].count (some x) := by
        simp only [holders, List.map_append, List.count_append, List.map_cons, List.map_nil, hn.hfd]
      rw [hh]
      have := hset q.fds
      omega
  | unmap m a s k =>
    simp only [step, Op.fds, Reply.left, List.count_nil, Nat.add_zero]
    have h := handleUnmap_case m cfg.hasUnreg c a s k
    generalize handleUnmap m cfg.hasUnreg c a s k = o at h
    cases h with
    | removed c1 l1 l2 r b hk hg hm hs hd e1 e2 e3 e4 e5 =>
      simp only [closes_dropEvs]
      rw [holders_geoms c, ← hg, ← holders_geoms]
      simp only [holders, e1, List.map_append, List.map_cons, List.count_append]
      rw [List.count_cons, List.count_cons]
      simp only [List.count_nil]
      omega
    | cleared _ =>
      have : ∀ rs : List Region, closes (rs.flatMap (dropEvs cfg.hasUnreg)) x = (rs.map (·.fd)).count (some x) := by
        intro rs
        induction rs with
        | nil => rfl
        | cons r rs ih =>
          have h1 := closes_dropEvs cfg.hasUnreg r x
          unfold closes at ih h1 ⊢
          rw [List.flatMap_cons, List.count_append, ih, h1, List.map_cons]
          rw [List.count_cons, List.count_cons]
          simp only [List.count_nil]
          omega
      simp only [this, holders, List.map_nil, List.count_nil]
      omega
    | enoent c1 _ hg hm hs _ _ => rw [holders_geoms, hg, ← holders_geoms]; simp [closes]
    | nomem => simp [closes]
    | dirtyFail c1 _ _ _ _ _ _ _ hg hm hs _ => rw [holders_geoms, hg, ← holders_geoms]; simp [closes]
    | assert c1 f _ hg hm hs _ => rw [holders_geoms, hg, ← holders_geoms]; simp [closes]
  | logStart ca p =>
    obtain ⟨h1, _, _⟩ := loggingStart_geom ca c p
    rw [holders_geoms, holders_geoms c]
    simp only [step, Ctl.geoms, h1, Op.fds, Reply.left, closes]
    simp
  | logStop =>
    obtain ⟨h1, _, _⟩ := loggingStop_geom c
    rw [holders_geoms, holders_geoms c]
    simp only [step, Ctl.geoms, h1, Op.fds, Reply.left, closes]
    simp
  | query hint a l p s b =>
    obtain ⟨h1, _, _, _⟩ := dirtyPageGet_geom c hint a l p s b
    rw [holders_geoms, holders_geoms c]
    simp only [step, Ctl.geoms, h1, Op.fds, Reply.left, closes]
    simp
  | mark sgl =>
    simp only [step]
    cases h : sglMark c sgl with
    | ok c' =>
      obtain ⟨h1, _, _, _⟩ := sglMark_geom h
      rw [holders_geoms, holders_geoms c]
      simp only [Ctl.geoms, h1, Op.fds, Reply.left, closes]
      simp
    | err e => simp [Op.fds, Reply.left, closes]
    | fault f => simp [Op.fds, Reply.left, closes]

theorem conserve_run (cfg : Cfg) (x : Fd) (ops : List Op) (c : Ctl)
    (h : ∀ op ∈ ops, op.OSOk ∧ op.Bounded) (hc : CleanRun cfg c ops) :
    holders (run cfg c ops).1 x + closesRun cfg x c ops =
      holders c x + (ops.flatMap Op.fds).count x := by
  induction ops generalizing c with
  | nil => simp [run, closesRun]
  | cons op ops ih =>
    simp only [List.mem_cons, forall_eq_or_imp] at h
    have h1 := conserve_step cfg c op x h.1.1 h.1.2 hc.1
    have h2 := ih (step cfg c op).1 h.2 hc.2
    simp only [run, closesRun, List.flatMap_cons, List.count_append]
    omega

/-- C08: over every clean history in which every received descriptor is a different token, each
descriptor is either held by exactly one region and not closed, or held by none and closed exactly once
(by the handlers or with its message). -/
theorem C08_conservation (cfg : Cfg) (m s : Nat) (ops : List Op)
    (h : ∀ op ∈ ops, op.OSOk ∧ op.Bounded) (hclean : CleanRun cfg (create m s) ops)
    (hnd : (ops.flatMap Op.fds).Nodup) (x : Fd) :
    (x ∈ ops.flatMap Op.fds →
      (holders (run cfg (create m s) ops).1 x = 1 ∧ closesRun cfg x (create m s) ops = 0) ∨
      (holders (run cfg (create m s) ops).1 x = 0 ∧ closesRun cfg x (create m s) ops = 1)) ∧
    (x ∉ ops.flatMap Op.fds →
      holders (run cfg (create m s) ops).1 x = 0 ∧ closesRun cfg x (create m s) ops = 0) := by
  have hcon := conserve_run cfg x ops (create m s) h hclean
  have h0 : holders (create m s) x = 0 := by simp [holders, create]
  rw [h0, Nat.zero_add] at hcon
  constructor
  · intro hx
    have : (ops.flatMap Op.fds).count x = 1 := by
      have h1 := List.nodup_iff_count.mp hnd x
      have h2 := List.count_pos_iff.mpr hx
      omega
    omega
  · intro hx
    have : (ops.flatMap Op.fds).count x = 0 := List.count_eq_zero.mpr hx
    omega

/-- One descriptor kept, one closed by an unmap, one closed with a refused request, one surplus. -/
def hist3 : List Op :=
  [mapFd 0x1000 0x1000 0 4, mapFd 0x2000 0x1000 0 6, mapFd 0x2800 0x1000 0 8,
   .map os0 { flags := 3, offset := 0, addr := 0x5000, size := 0x1000, fds := [10, 12] },
   .unmap true 0x1000 0x1000 .plain]

example : (hist3.flatMap Op.fds).Nodup ∧
    [4, 6, 8, 10, 12].map (fun x => (holders (run cfg0 (create 64 0x10000) hist3).1 x,
      closesRun cfg0 x (create 64 0x10000) hist3)) = [(0, 1), (1, 0), (0, 1), (1, 0), (0, 1)] := by
  decide

/-- When `mmap` fails the descriptor is closed twice: by `dma_controller_add_region` (its own copy) and
again by `handle_dma_map`. -/
theorem C08_double_close : ∃ ops : List Op, (∀ op ∈ ops, op.OSOk ∧ op.Bounded) ∧
    ops.flatMap Op.fds = [4] ∧ closesRun cfg0 4 (create 64 0x80000000000) ops = 2 := by
  refine ⟨[mapFd 0x1000 0x200000 0 4], ?_, by decide, by decide⟩
  intro op hop
  simp only [List.mem_cons, List.not_mem_nil, or_false] at hop
  subst hop
  exact ⟨os0_ok, by simp [mapFd, Op.Bounded, MapReq.Bounded, U64, U32]⟩

/-- When a mapped region is mapped again the new descriptor is neither kept nor closed. -/
theorem C08_leak : ∃ ops : List Op, (∀ op ∈ ops, op.OSOk ∧ op.Bounded) ∧
    (ops.flatMap Op.fds).Nodup ∧ 5 ∈ ops.flatMap Op.fds ∧
    holders (run cfg0 (create 64 0x10000) ops).1 5 = 0 ∧
    closesRun cfg0 5 (create 64 0x10000) ops = 0 := by
  refine ⟨[mapFd 0x1000 0x1000 0 4, mapFd 0x1000 0x1000 0 5], ?_, by decide, by decide, by decide, by decide⟩
  intro op hop
  simp only [List.mem_cons, List.not_mem_nil, or_false] at hop
  rcases hop with rfl | rfl <;>
    exact ⟨os0_ok, by simp [mapFd, Op.Bounded, MapReq.Bounded, U64, U32]⟩

/-! ## C09 -/

/-- Observer of the callback trace: `S` are the mappings currently announced to the device, `last` the
last one withdrawn.  A step is illegal (`none`) when something is withdrawn that is not announced, or
when memory disappears that is not the memory of the mapping withdrawn last. -/
def observe : (Info → Bool) → Option Info → List Ev → Option (Info → Bool)
  | S, _, [] => some S
  | S, last, .register i :: evs => observe (fun j => S j || j == i) last evs
  | S, _, .unregister i :: evs =>
    if S i then observe (fun j => S j && !(j == i)) (some i) evs else none
  | S, last, .munmap b l :: evs =>
    match last with
    | none => none
    | some i => if i.mapBase = b ∧ i.mapLen = l then observe S none evs else none
  | S, last, .mmap _ _ :: evs => observe S last evs
  | S, last, .close _ :: evs => observe S last evs

/-- The announced mappings are exactly those of the tracked regions. -/
def Announced (c : Ctl) (S : Info → Bool) : Prop := ∀ i, S i = true ↔ ∃ r ∈ c.regions, r.info = i

theorem Announced.geoms {c c' : Ctl} {S} (h : Announced c S) (hg : c'.geoms = c.geoms) : Announced c' S := by
  intro i
  rw [h i]
  constructor
  · exact exists_of_geoms hg.symm (P := fun r => r.info = i)
      (fun r s he hr => by rw [← hr]; exact (congrArg (·.1) he).symm)
  · exact exists_of_geoms hg (P := fun r => r.info = i)
      (fun r s he hr => by rw [← hr]; exact (congrArg (·.1) he).symm)

theorem observe_drop (r : Region) (S : Info → Bool) (last : Option Info) (evs : List Ev) (hS : S r.info = true) :
    ∃ last', observe S last (dropEvs true r ++ evs) =
      observe (fun j => S j && !(j == r.info)) last' evs := by
  unfold dropEvs
  cases r.fd with
  | none => exact ⟨some r.info, by simp [observe, hS]⟩
  | some x => exact ⟨none, by simp [observe, hS]⟩

theorem observe_dropAll (rs : List Region) (S : Info → Bool) (last : Option Info) (evs : List Ev)
    (hS : ∀ i, S i = true ↔ ∃ r ∈ rs, r.info = i) (hk : rs.Pairwise (fun r s => r.info ≠ s.info)) :
    ∃ last', observe S last (rs.flatMap (dropEvs true) ++ evs) = observe (fun _ => false) last' evs := by
  induction rs generalizing S last with
  | nil =>
    have : S = fun _ => false := by
      funext i
      cases h : S i with
      | false => rfl
      | true => simpa using (hS i).mp h
    exact ⟨last, by rw [this]; rfl⟩
  | cons r rs ih =>
    rw [List.pairwise_cons] at hk
    rw [List.flatMap_cons, List.append_assoc]
    obtain ⟨l1, h1⟩ := observe_drop r S last (rs.flatMap (dropEvs true) ++ evs)
      ((hS _).mpr ⟨r, List.mem_cons_self, rfl⟩)
    rw [h1]
    apply ih _ _ _ hk.2
    intro i
    simp only [Bool.and_eq_true, Bool.not_eq_true', beq_eq_false_iff_ne, hS i]
    constructor
    · rintro ⟨⟨s, hs, rfl⟩, hne⟩
      rcases List.mem_cons.mp hs with rfl | hs
      · exact absurd rfl hne
      · exact ⟨s, hs, rfl⟩
    · rintro ⟨s, hs, rfl⟩
      exact ⟨⟨s, List.mem_cons_of_mem _ hs, rfl⟩, fun he => hk.1 s hs he.symm⟩

theorem keys_infos {c : Ctl} (h : c.geoms.Pairwise KeyG) : c.regions.Pairwise (fun r s => r.info ≠ s.info) := by
  unfold Ctl.geoms at h
  rw [List.pairwise_map] at h
  exact h.imp (fun hk he => hk (by simp [Region.geom, he]))

theorem announce_step (cfg : Cfg) (h1 : cfg.hasReg = true) (h2 : cfg.hasUnreg = true) (c : Ctl) (op : Op)
    (hk : c.geoms.Pairwise KeyG) (S : Info → Bool) (last : Option Info) (hS : Announced c S) (evs : List Ev) :
    ∃ S' last', observe S last ((step cfg c op).2.2 ++ evs) = observe S' last' evs ∧
      Announced (step cfg c op).1 S' := by
  cases op with
  | map os q =>
    simp only [step]
    have h := handleMap_case os cfg.hasReg c q
    generalize handleMap os cfg.hasReg c q = o at h
    cases h with
    | flags e _ _ => exact ⟨S, last, rfl, hS⟩
    | fail e ev _ hadd hev =>
      refine ⟨S, last, ?_, hS⟩
      rcases hev with rfl | ⟨y, hy, rfl⟩
      · cases q.fds.head? <;> simp [closeEv, observe]
      · rw [hy]; simp [closeEv, observe]
    | again idx r _ hr _ _ _ _ _ _ =>
      refine ⟨S, last, ?_, hS⟩
      have : (fun j => S j || j == r.info) = S := by
        funext j
        by_cases hj : j = r.info
        · subst hj
          simp [(hS r.info).mpr ⟨r, List.mem_of_getElem? hr, rfl⟩]
        · have : (j == r.info) = false := by simp [hj]
          rw [this, Bool.or_false]
      simp only [h1, if_true, List.cons_append, List.nil_append, observe, this]
    | new r _ _ _ _ hn _ =>
      refine ⟨fun j => S j || j == r.info, last, ?_, ?_⟩
      · simp only [h1, if_true]
        split <;> simp [observe]
      · intro i
        simp only [Bool.or_eq_true, hS i, beq_iff_eq, List.mem_append, List.mem_singleton]
        constructor
        · rintro (⟨s, hs, rfl⟩ | rfl)
          · exact ⟨s, Or.inl hs, rfl⟩
          · exact ⟨r, Or.inr rfl, rfl⟩
        · rintro ⟨s, hs | rfl, rfl⟩
          · exact Or.inl ⟨s, hs, rfl⟩
          · exact Or.inr rfl
  | unmap m a s k =>
    simp only [step]
    have h := handleUnmap_case m cfg.hasUnreg c a s k
    rw [h2] at h ⊢
    generalize handleUnmap m true c a s k = o at h
    cases h with
    | removed c1 l1 l2 r b hk' hg hm hs hd e1 e2 e3 e4 e5 =>
      have hS1 := hS.geoms hg
      rw [← hg] at hk
      have hki := keys_infos hk
      rw [e1] at hki
      rw [List.pairwise_append, List.pairwise_cons] at hki
      obtain ⟨l', hl'⟩ := observe_drop r S last evs ((hS1 _).mpr ⟨r, by rw [e1]; simp, rfl⟩)
      refine ⟨_, l', hl', ?_⟩
      intro i
      simp only [Bool.and_eq_true, Bool.not_eq_true', beq_eq_false_iff_ne, hS1 i, e1, List.mem_append]
      constructor
      · rintro ⟨⟨s', hs', rfl⟩, hne⟩
        rcases hs' with hs' | hs'
        · exact ⟨s', Or.inl hs', rfl⟩
        · rcases List.mem_cons.mp hs' with rfl | hs'
          · exact absurd rfl hne
          · exact ⟨s', Or.inr hs', rfl⟩
      · rintro ⟨s', hs' | hs', rfl⟩
        · exact ⟨⟨s', Or.inl hs', rfl⟩, hki.2.2 s' hs' r List.mem_cons_self⟩
        · exact ⟨⟨s', Or.inr (List.mem_cons_of_mem _ hs'), rfl⟩, fun he => hki.2.1.1 s' hs' he.symm⟩
    | cleared _ =>
      obtain ⟨l', hl'⟩ := observe_dropAll c.regions S last evs hS (keys_infos hk)
      exact ⟨_, l', hl', by intro i; simp⟩
    | enoent c1 _ hg hm hs _ _ => exact ⟨S, last, rfl, hS.geoms hg⟩
    | nomem => exact ⟨S, last, rfl, hS⟩
    | dirtyFail c1 _ _ _ _ _ _ _ hg hm hs _ => exact ⟨S, last, rfl, hS.geoms hg⟩
    | assert c1 f _ hg hm hs _ => exact ⟨S, last, rfl, hS.geoms hg⟩
  | logStart ca p =>
    obtain ⟨h1, _, _⟩ := loggingStart_geom ca c p
    exact ⟨S, last, rfl, hS.geoms h1⟩
  | logStop =>
    obtain ⟨h1, _, _⟩ := loggingStop_geom c
    exact ⟨S, last, rfl, hS.geoms h1⟩
  | query hint a l p s b =>
    obtain ⟨h1, _, _, _⟩ := dirtyPageGet_geom c hint a l p s b
    exact ⟨S, last, rfl, hS.geoms h1⟩
  | mark sgl =>
    simp only [step]
    cases h : sglMark c sgl with
    | ok c' =>
      obtain ⟨h1, _, _, _⟩ := sglMark_geom h
      exact ⟨S, last, rfl, hS.geoms h1⟩
    | err e => exact ⟨S, last, rfl, hS⟩
    | fault f => exact ⟨S, last, rfl, hS⟩

/-- C09: for a device with both callbacks, the callback trace of every history is legal for the
observer (so nothing is withdrawn that is not announced, hence never twice without a new announcement,
and memory is unmapped only right after its withdrawal), and what is announced at the end is exactly
the set of tracked regions with their ranges and mappings — so every region that left the table has been
withdrawn. -/
theorem C09_announcements (cfg : Cfg) (h1 : cfg.hasReg = true) (h2 : cfg.hasUnreg = true) (m s : Nat)
    (ops : List Op) (h : ∀ op ∈ ops, op.OSOk ∧ op.Bounded) :
    ∃ S, observe (fun _ => false) none (run cfg (create m s) ops).2 = some S ∧
      ∀ i, S i = true ↔ ∃ r ∈ (run cfg (create m s) ops).1.regions, r.info = i := by
  suffices H : ∀ (ops : List Op) (c : Ctl) (S : Info → Bool) (last : Option Info), Inv2 c → Announced c S →
      (∀ op ∈ ops, op.OSOk ∧ op.Bounded) →
      ∃ S', observe S last (run cfg c ops).2 = some S' ∧ Announced (run cfg c ops).1 S' by
    exact H ops (create m s) _ none (inv2_create m s) (by intro i; simp [create]) h
  intro ops
  induction ops with
  | nil => intro c S last _ hS _; exact ⟨S, rfl, hS⟩
  | cons op ops ih =>
    intro c S last hi hS h
    simp only [List.mem_cons, forall_eq_or_imp] at h
    obtain ⟨S1, l1, e1, hS1⟩ := announce_step cfg h1 h2 c op hi.keys S last hS
      (run cfg (step cfg c op).1 ops).2
    obtain ⟨S2, e2, hS2⟩ := ih (step cfg c op).1 S1 l1 (inv2_step cfg c op hi h.1.1 h.1.2) hS1 h.2
    exact ⟨S2, by simp only [run]; rw [e1]; exact e2, hS2⟩

example : (run cfg0 (create 64 0x10000) hist3).2.filterMap (fun e => match e with
      | .register i => some (true, i.base) | .unregister i => some (false, i.base) | _ => none) =
    [(true, 0x1000), (true, 0x2000), (true, 0x5000), (false, 0x1000)] := by
  decide

/-! ## C10 -/

/-- The operation does not unmap any of the regions `rs`. -/
def Op.Keeps (rs : List Region) : Op → Prop
  | .unmap _ a s k => k ≠ .all ∧ ∀ r ∈ rs, ¬ (r.info.base = a ∧ r.info.len = s)
  | _ => True

theorem prefix_step (cfg : Cfg) (c : Ctl) (op : Op) (g : List Geom)
    (hg : g <+: c.geoms) (hk : ∀ m a s k, op = .unmap m a s k →
      k ≠ .all ∧ ∀ x ∈ g, ¬ (x.1.base = a ∧ x.1.len = s)) :
    g <+: (step cfg c op).1.geoms := by
  cases op with
  | map os q =>
    simp only [step]
    have h := handleMap_case os cfg.hasReg c q
    generalize handleMap os cfg.hasReg c q = o at h
    cases h with
    | flags e _ _ => exact hg
    | fail e ev _ hadd hev => exact hg
    | again idx r _ hr _ _ _ _ _ _ => exact hg
    | new r _ _ _ _ hn _ =>
      simp only [Ctl.geoms, List.map_append] at hg ⊢
      exact hg.trans (List.prefix_append _ _)
  | unmap m a s k =>
    simp only [step]
    obtain ⟨hka, hno⟩ := hk m a s k rfl
    have h := handleUnmap_case m cfg.hasUnreg c a s k
    generalize handleUnmap m cfg.hasUnreg c a s k = o at h
    cases h with
    | removed c1 l1 l2 r b hk' hg1 hm hs hd e1 e2 e3 e4 e5 =>
      rw [← hg1] at hg
      simp only [Ctl.geoms, e1, List.map_append, List.map_cons] at hg ⊢
      have hlen : g.length ≤ (l1.map Region.geom).length := by
        apply Classical.byContradiction
        intro hlt
        have hmem : r.geom ∈ g := by
          have e := List.prefix_iff_eq_take.mp hg
          rw [e, List.take_append]
          apply List.mem_append_right
          obtain ⟨n, hn⟩ : ∃ n, g.length - (l1.map Region.geom).length = n + 1 :=
            ⟨g.length - (l1.map Region.geom).length - 1, by omega⟩
          rw [hn, List.take_succ_cons]
          exact List.mem_cons_self
        exact hno _ hmem ⟨e2, e3⟩
      have := List.prefix_of_prefix_length_le hg (List.prefix_append _ _) hlen
      exact this.trans (List.prefix_append _ _)
    | cleared h => exact absurd h hka
    | enoent c1 _ hg1 hm hs _ _ => rw [hg1]; exact hg
    | nomem => exact hg
    | dirtyFail c1 _ _ _ _ _ _ _ hg1 hm hs _ => rw [hg1]; exact hg
    | assert c1 f _ hg1 hm hs _ => rw [hg1]; exact hg
  | logStart ca p =>
    obtain ⟨h1, _, _⟩ := loggingStart_geom ca c p
    simp only [step, Ctl.geoms, h1] at hg ⊢; exact hg
  | logStop =>
    obtain ⟨h1, _, _⟩ := loggingStop_geom c
    simp only [step, Ctl.geoms, h1] at hg ⊢; exact hg
  | query hint a l p s b =>
    obtain ⟨h1, _, _, _⟩ := dirtyPageGet_geom c hint a l p s b
    simp only [step, Ctl.geoms, h1] at hg ⊢; exact hg
  | mark sgl =>
    simp only [step]
    cases h : sglMark c sgl with
    | ok c' =>
      obtain ⟨h1, _, _, _⟩ := sglMark_geom h
      simp only [Ctl.geoms, h1] at hg ⊢; exact hg
    | err e => exact hg
    | fault f => exact hg

/-- C10: in every table (reachable or not) an entry of a mapped region gives the same answer after any
further operations that do not unmap that region or one of the regions before it. -/
theorem C10_stable (cfg : Cfg) (c : Ctl) (ops : List Op) (sg : Sg) (hreg : sg.region < c.regions.length)
    (h : ∀ op ∈ ops, op.Keeps (c.regions.take (sg.region + 1))) :
    sgGet (run cfg c ops).1 sg = sgGet c sg := by
  have key : (c.regions.take (sg.region + 1)).map Region.geom <+: (run cfg c ops).1.geoms := by
    refine run_induction (cfg := cfg)
      (P := fun c' => (c.regions.take (sg.region + 1)).map Region.geom <+: c'.geoms)
      (Q := fun op => op.Keeps (c.regions.take (sg.region + 1))) ?_ ops c ?_ h
    · intro c' op hp hq
      apply prefix_step cfg c' op _ hp
      rintro m a s k rfl
      refine ⟨hq.1, ?_⟩
      intro x hx
      obtain ⟨r, hr, rfl⟩ := List.mem_map.mp hx
      exact hq.2 r hr
    · simp only [Ctl.geoms]
      rw [List.map_take]
      exact List.take_prefix _ _
  have hget : c.regions[sg.region]? = some c.regions[sg.region] := List.getElem?_eq_getElem hreg
  have h1 : ((c.regions.take (sg.region + 1)).map Region.geom)[sg.region]? =
      some (c.regions[sg.region]).geom := by
    rw [List.getElem?_map, List.getElem?_take, if_pos (by omega), hget]; rfl
  have h2 : (run cfg c ops).1.geoms[sg.region]? = some (c.regions[sg.region]).geom := by
    obtain ⟨t, ht⟩ := key
    rw [← ht, List.getElem?_append_left (by simp; omega)]
    exact h1
  simp only [Ctl.geoms, List.getElem?_map, Option.map_eq_some_iff] at h2
  obtain ⟨r', hr', he⟩ := h2
  unfold sgGet
  rw [hr', hget]
  simp only
  have : r'.info = (c.regions[sg.region]).info := congrArg (·.1) he
  rw [this]

/-- Like `os0`, with another place for mappings. -/
def os1 : OS :=
  { os0 with mmap := fun len _ => if len = 0 ∨ 0x100000 < len then .error ENOMEM else .ok 0x50000000 }

/-- Three file-backed regions; the last is mapped elsewhere. -/
def hist4 : List Op :=
  [mapFd 0x1000 0x1000 0 4, mapFd 0x2000 0x1000 0 6,
   .map os1 { flags := 3, offset := 0, addr := 0x3000, size := 0x1000, fds := [8] }]

example :
    let c := (run cfg0 (create 64 0x10000) hist4).1
    let sg : Sg := ⟨0x2000, 1, 0x100, 0x10, true⟩
    let ops := [.unmap true 0x3000 0x1000 .plain, mapAt 0x9000 0x1000, .unmap true 0x9000 0x1000 .plain]
    sg.region < c.regions.length ∧ (∀ op ∈ ops, op.Keeps (c.regions.take (sg.region + 1))) ∧
    (run cfg0 c ops).1.regions.length = 2 ∧ sgGet c sg = .ok (0x70000010, 0x100) := by
  refine ⟨by decide, ?_, by decide, by decide⟩
  intro op hop
  simp only [List.mem_cons, List.not_mem_nil, or_false] at hop
  rcases hop with rfl | rfl | rfl
  · exact ⟨by decide, by decide⟩
  · trivial
  · exact ⟨by decide, by decide⟩

/-- Unmapping an earlier region silently redirects a still valid entry to the memory of another region:
the region of the entry is untouched by the unmap, yet the buffer changes. -/
theorem C10_violated :
    let c := (run cfg0 (create 64 0x10000) hist4).1
    let sg : Sg := ⟨0x2000, 1, 0x100, 0x10, true⟩
    let c' := (run cfg0 c [.unmap true 0x1000 0x1000 .plain]).1
    (addrToSgl c 0 0x2010 0x100 1 true).1 = .ok [sg] ∧
    (∃ r ∈ c.regions, r.info.base = 0x2000 ∧ r ∈ c'.regions) ∧
    sgGet c sg = .ok (0x70000010, 0x100) ∧ sgGet c' sg = .ok (0x50000010, 0x100) := by
  decide

end Verif.Dma
