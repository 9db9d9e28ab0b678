import Verif.Server.Length
import Verif.Server.Soil
import Verif.Server.Fds
import Verif.Server.Gate
import Verif.Server.Crash

/-!
# What a client can make the server keep

C110: descriptors, regions, bitmaps and request bytes that a context holds between calls, over every history.  The one
request that makes the process keep more is a repeated map of a range it has: the descriptor of the repetition is neither
kept by the table nor closed (`lib/dma.c:318-327`, `lib/libvfio-user.c:717-742`).  Descriptors of a message that is cut off
are in C59 (`C59_lost`). -/

namespace Verif.Server
open Verif
open Verif.Dma (Fd)

/-- The descriptors a context holds: those of its DMA regions, of its interrupts, of the request it keeps. -/
def descs (st : St) : List Fd :=
  (match st.dma with | none => [] | some c => c.regions.filterMap (·.fd)) ++
    (st.irqs.err :: st.irqs.req :: st.irqs.efds).filterMap id ++
    (match st.pending with | .msg m => m.fds | _ => [])

theorem count_filterMap_id (l : List (Option Fd)) (x : Fd) : (l.filterMap id).count x = l.count (some x) := by
  induction l with
  | nil => rfl
  | cons a l ih =>
    cases a with
    | none => rw [List.filterMap_cons_none rfl, List.count_cons_of_ne (by simp), ih]
    | some y =>
      have e : (some y :: l).filterMap id = y :: l.filterMap id := rfl
      rw [e, List.count_cons, List.count_cons, ih]
      by_cases h : y = x
      · simp [h]
      · simp [h]

theorem count_descs (st : St) (x : Fd) : (descs st).count x = owners st x := by
  unfold descs owners inRegions inVectors inPending
  rw [List.count_append, List.count_append, count_filterMap_id]
  congr 1
  · congr 1
    · cases st.dma with
      | none => rfl
      | some c =>
        dsimp only
        rw [← count_filterMap_id, List.filterMap_map]; rfl
    · rw [← List.count_append]; rfl
  · cases st.pending <;> rfl

/-! ### Sizes -/

/-- A dirty bitmap takes at most one bit per byte of its region, rounded up to eight bytes. -/
theorem bitmap_small {len pg n : Nat} (h : getBitmapSize len pg = .ok n) : n ≤ len / 8 + 8 := by
  unfold getBitmapSize at h
  by_cases h0 : pg = 0
  · rw [if_pos h0] at h; cases h
  rw [if_neg h0] at h
  by_cases h1 : len < pg
  · rw [if_pos h1] at h; cases h
  rw [if_neg h1] at h
  dsimp only at h
  have hp : len / pg + (if len % pg ≠ 0 then 1 else 0) ≤ len := by
    by_cases hm : len % pg = 0
    · simp only [hm, ne_eq, not_true_eq_false, if_false, Nat.add_zero]; exact Nat.div_le_self ..
    · have h2 : pg ≠ 1 := fun e => hm (by rw [e]; exact Nat.mod_one _)
      have h3 : len / pg ≤ len / 2 := Nat.div_le_div_left (by omega) (by omega)
      simp only [ne_eq, hm, not_false_eq_true, if_true]
      omega
  have h4 := Dma.roundUp_le (len / pg + (if len % pg ≠ 0 then 1 else 0)) 64
  have h5 : n = roundUp (len / pg + (if len % pg ≠ 0 then 1 else 0)) 64 / 8 := (Res.ok.inj h).symm
  omega

/-- What the socket delivers as a request is at most 1 MiB and 16 bytes, with at most 1024 descriptors. -/
theorem real_small {h : Wire.Hdr} {b : List Byte} {f : List Fd} (hr : Real (.req h b f)) :
    b.length ≤ 1048592 ∧ f.length ≤ 1024 := by
  obtain ⟨s, hs⟩ := hr
  obtain ⟨_, _, _, _, _, _, h1, _, h2⟩ := Wire.C47_read (s' := (Wire.next s).2) (Prod.ext hs.symm rfl)
  exact ⟨by omega, next_fds.1 _ _ _ hs.symm⟩

/-- The request a history keeps came from the socket. -/
theorem kept_real (cfg : Cfg) (ops : List Op) (st : St) (hg : ∀ op ∈ ops, op.Good Real)
    (hp : ∀ m, st.pending = .msg m → Real (.req m.hdr m.body m.fds)) :
    ∀ m, (run cfg st ops).1.pending = .msg m → Real (.req m.hdr m.body m.fds) := by
  induction ops generalizing st with
  | nil => exact hp
  | cons op ops ih =>
    have h1 := call_kept (fun m => Real (.req m.hdr m.body m.fds)) cfg st op
      (fun env h b f e => by have := hg op (.head _); rw [e] at this; exact this) hp
    unfold run
    dsimp only
    by_cases hf : (call cfg st op).res.isFault = true
    · rw [if_pos hf]; exact h1
    · rw [if_neg hf]; exact ih _ (fun o h => hg o (.tail _ h)) h1

theorem maxIvs_le {cfg : Irq.Cfg} {n : Nat} (h : ∀ i, i < 5 → cfg.cnt i ≤ n) : Irq.maxIvs cfg ≤ n := by
  have hr : List.range Irq.NUM_IRQS = [0, 1, 2, 3, 4] := by decide
  have hs : ∀ a i, a ≤ n → i < 5 → (if a < cfg.cnt i then cfg.cnt i else a) ≤ n := by
    intro a i ha hi
    by_cases hx : a < cfg.cnt i
    · rw [if_pos hx]; exact h i hi
    · rw [if_neg hx]; exact ha
  simp only [Irq.maxIvs, hr, List.foldl_cons, List.foldl_nil]
  exact hs _ _ (hs _ _ (hs _ _ (hs _ _ (hs _ _ (Nat.zero_le _) (by decide)) (by decide)) (by decide)) (by decide)) (by decide)

/-- **C110**, what is kept.  Over every history of calls with whatever a socket delivers: no more DMA regions than set up,
none larger than the limit set up, with a dirty bitmap of at most one bit per byte; the request that waits for its quiesce
is at most 1 MiB and 16 bytes, with at most 1024 descriptors; so if no interrupt type has more than `n` vectors, the context
holds at most `max_regions + n + 2 + 1024` descriptors, and without a waiting request `max_regions + n + 2`. -/
theorem C110_kept (cfg : Cfg) (mig : Bool) (x : Nat × Nat) (pci : Pci.Pci) (ops : List Op) (hi : cfg.irq.Ok) (n : Nat)
    (hn : ∀ i, i < 5 → cfg.irq.cnt i ≤ n) (ho : ∀ op ∈ ops, op.OSOk) (hg : ∀ op ∈ ops, op.Good Real) :
    let st := (run cfg (init cfg mig (some x) pci) ops).1
    (∃ c, st.dma = some c ∧ c.regions.length ≤ x.1 ∧ ∀ r ∈ c.regions, r.info.len ≤ x.2 ∧
      ∀ bm, r.dirty = some bm → bm.length ≤ r.info.len / 8 + 8) ∧
    (∀ m, st.pending = .msg m → m.body.length ≤ 1048592 ∧ m.fds.length ≤ 1024) ∧
    (descs st).length ≤ x.1 + n + 2 + 1024 ∧
    ((∀ m, st.pending ≠ .msg m) → (descs st).length ≤ x.1 + n + 2) := by
  intro st
  have hr := run_reached cfg mig (some x) pci ops ho
  have hw := hr.irq_wf hi
  have hk := kept_real cfg ops (init cfg mig (some x) pci) hg (fun m h => by cases h)
  obtain ⟨⟨dops, hdo, hd⟩, _⟩ := hr
  have hd : st.dma = some (Dma.run cfg.dma (Dma.create x.1 x.2) dops).1 := hd
  have hlim := Dma.C01_limits cfg.dma x.1 x.2 dops
  have hlog := Dma.logInv_run cfg.dma x.1 x.2 dops
  generalize hc : (Dma.run cfg.dma (Dma.create x.1 x.2) dops).1 = c at hd hlim hlog
  have hw : Irq.WF cfg.irq st.irqs := hw
  have hk : ∀ m, st.pending = .msg m → m.body.length ≤ 1048592 ∧ m.fds.length ≤ 1024 :=
    fun m h => real_small (hk m h)
  generalize st = st at hd hw hk
  have h1 : (c.regions.filterMap (·.fd)).length ≤ x.1 := Nat.le_trans (List.length_filterMap_le ..) hlim.1
  have h2 : ((st.irqs.err :: st.irqs.req :: st.irqs.efds).filterMap id).length ≤ n + 2 := by
    refine Nat.le_trans (List.length_filterMap_le ..) ?_
    have := hw.len
    have := maxIvs_le hn
    simp only [List.length_cons]
    omega
  refine ⟨⟨c, hd, hlim.1, fun r h => ⟨hlim.2 r h, fun bm hb => ?_⟩⟩, hk, ?_, fun hp => ?_⟩
  · obtain ⟨l1, l2, l3⟩ := hlog r h
    by_cases h0 : c.dirtyPgsize = 0
    · rw [l1 h0] at hb; cases hb
    · cases hf : r.fd with
      | none => rw [l2 h0 hf] at hb; cases hb
      | some y =>
        obtain ⟨b, e1, e2⟩ := l3 h0 (by rw [hf]; simp)
        rw [hb] at e1; cases e1
        exact bitmap_small e2
  · unfold descs
    rw [hd]
    dsimp only
    rw [List.length_append, List.length_append]
    have h3 : (match st.pending with | .msg m => m.fds | _ => []).length ≤ 1024 := by
      cases h : st.pending with
      | msg m => exact (hk m h).2
      | none => exact Nat.zero_le _
      | ctxReset => exact Nat.zero_le _
    omega
  · unfold descs
    rw [hd]
    dsimp only
    rw [List.length_append, List.length_append]
    have h3 : (match st.pending with | .msg m => m.fds | _ => []).length = 0 := by
      cases h : st.pending with
      | msg m => exact absurd h (hp m)
      | none => rfl
      | ctxReset => rfl
    omega

/-! ### Descriptors received -/

/-- The descriptors closed, in order. -/
def closings (evs : List Ev) : List Fd := evs.filterMap fun e => match e with | .close x => some x | _ => none

theorem count_closings (evs : List Ev) (x : Fd) : (closings evs).count x = closesOf evs x := by
  unfold closesOf closings
  induction evs with
  | nil => rfl
  | cons e l ih =>
    by_cases h : ∃ y, e = .close y
    · obtain ⟨y, rfl⟩ := h
      have e : closings (.close y :: l) = y :: closings l := rfl
      unfold closings at e
      rw [e, List.count_cons, List.count_cons, ih]
      by_cases h : y = x
      · simp [h]
      · simp [h]
    · rw [List.count_cons_of_ne (fun e' => h ⟨x, e'⟩), ← ih]
      cases e <;> first | rfl | exact absurd ⟨_, rfl⟩ h

/-- **C110**, all accounted for.  In a history that runs to its end without the map requests of C08 (a repeated map, a
map whose mapping fails), the descriptors received are, each as often as received, those the context
holds and those it closed.  So all but `max_regions + n + 2 + 1024` of them were closed. -/
theorem C110_account (cfg : Cfg) (mig : Bool) (x : Nat × Nat) (pci : Pci.Pci) (ops : List Op) (hi : cfg.irq.Ok) (n : Nat)
    (hn : ∀ i, i < 5 → cfg.irq.cnt i ≤ n) (ho : ∀ op ∈ ops, op.OSOk) (hg : ∀ op ∈ ops, op.Good Real)
    (hc : CleanRun cfg (init cfg mig (some x) pci) ops) (hf : Completes cfg (init cfg mig (some x) pci) ops) :
    let r := run cfg (init cfg mig (some x) pci) ops
    (gots r.2).Perm (descs r.1 ++ closings r.2) ∧ (gots r.2).length ≤ (closings r.2).length + (x.1 + n + 2 + 1024) := by
  intro r
  have hp : (gots r.2).Perm (descs r.1 ++ closings r.2) := by
    rw [List.perm_iff_count]
    intro y
    rw [List.count_append, count_descs, count_closings]
    exact (C59_balance cfg mig (some x) pci ops ho hc hf y).symm
  refine ⟨hp, ?_⟩
  have h1 := hp.length_eq
  have h2 := (C110_kept cfg mig x pci ops hi n hn ho hg).2.2.1
  rw [List.length_append] at h1
  change (descs r.1).length ≤ _ at h2
  omega

theorem gots_append (a b : List Ev) : gots (a ++ b) = gots a ++ gots b := List.flatMap_append ..
theorem gots_cons (e : Ev) (l : List Ev) : gots (e :: l) = gots [e] ++ gots l := gots_append [e] l
theorem gots_sents (ws : List Wire.Sent) : gots (ws.map Ev.sent) = [] := by
  induction ws with
  | nil => rfl
  | cons w ws ih => rw [List.map_cons, gots_cons, ih]; rfl
theorem closings_append (a b : List Ev) : closings (a ++ b) = closings a ++ closings b := List.filterMap_append ..
theorem closings_cons (e : Ev) (l : List Ev) : closings (e :: l) = closings [e] ++ closings l := closings_append [e] l
theorem closings_sents (ws : List Wire.Sent) : closings (ws.map Ev.sent) = [] := by
  induction ws with
  | nil => rfl
  | cons w ws ih => rw [List.map_cons, closings_cons, ih]; rfl

/-! ### The repeated map -/

/-- A map request that names a region of the table again: nothing changes, and nothing is left in the request to be
closed. -/
theorem same_map {os : Dma.OS} {reg : Bool} {c : Dma.Ctl} {q : Dma.MapReq} {k : Fd} {i : Nat} {r : Dma.Region}
    (hq : q.fds = [k]) (hfl : q.flags % U32 / 4 = 0) (hsz : ¬ q.size > c.maxSize)
    (hs : Dma.scan os q.addr q.size (some k) q.offset { read := q.flags.testBit 0, write := q.flags.testBit 1 } 0 c.regions
      = .same i) (hr : c.regions[i]? = some r) :
    Dma.handleMap os reg c q =
      { ctl := c, fds := [none], res := .ok (), evs := if reg then [.register r.info] else [] } := by
  unfold Dma.handleMap
  dsimp only
  rw [if_neg (fun h => h hfl), hq]
  have ht : Dma.takeFirst [k] = .ok (some k, [none]) := rfl
  rw [ht]
  dsimp only
  have ha : Dma.addRegion os c q.addr q.size (some k) q.offset { read := q.flags.testBit 0, write := q.flags.testBit 1 } =
      (c, .ok i, []) := by
    unfold Dma.addRegion
    rw [if_neg hsz, hs]
  rw [ha]
  dsimp only
  rw [hr]
  rfl

section
open Demo

/-- Whatever descriptor it is, it is of the same file. -/
def oneFile : Env := { env with os := { os with ino := fun _ => some 1 } }

/-- Map the same 2 MiB, with a descriptor. -/
def mapWith (k : Fd) : Op := .run oneFile (req 1 2 0 (mapBody 0x100000) [k])

/-- The first client, and its first map. -/
def client : Op := .attach (.ok { maxFds := 8 })
def mapped1 : St := (run cfg (init cfg true (some (8, 2 ^ 40)) pci) [client, mapWith 5]).1

/-- Its region, and the table. -/
def region1 : Dma.Region :=
  { info := { base := 0x100000, len := 0x200000, vaddr := 0x7f0000000000, mapBase := 0x7f0000000000
              mapLen := 0x200000, pageSize := 4096, prot := { read := true, write := true } }
    fd := some 5, offset := 0, dirty := none }
def table1 : Dma.Ctl := { maxRegions := 8, maxSize := 2 ^ 40, dirtyPgsize := 0, regions := [region1] }

theorem mapped1_facts : mapped1.dma = some table1 ∧ mapped1.pending = .none ∧ mapped1.conn = true ∧
    mapped1.mig = some Mig.RUNNING ∧ mapped1.quiesced = false := by decide +kernel

theorem again_map (k : Fd) : Dma.handleMap oneFile.os true table1 (mapReq (mapBody 0x100000) [k]) =
    { ctl := table1, fds := [none], res := .ok (), evs := [.register region1.info] } := by
  have h1 : (mapReq (mapBody 0x100000) [k]).addr = 0x100000 := by
    show leAt (mapBody 0x100000) 16 8 = _; decide +kernel
  have h2 : (mapReq (mapBody 0x100000) [k]).size = 0x200000 := by
    show leAt (mapBody 0x100000) 24 8 = _; decide +kernel
  have h3 : (mapReq (mapBody 0x100000) [k]).offset = 0 := by
    show leAt (mapBody 0x100000) 8 8 = _; decide +kernel
  have h4 : (mapReq (mapBody 0x100000) [k]).flags = 3 := by
    show leAt (mapBody 0x100000) 4 4 = _; decide +kernel
  refine (same_map (os := oneFile.os) (reg := true) (c := table1) (k := k) (i := 0) (r := region1) rfl ?_ ?_ ?_ rfl).trans rfl
  · rw [h4]; decide
  · rw [h2]; decide
  · rw [h1, h2, h3, h4]
    have hs : oneFile.os.sameFile (some 5) (some k) = true := by simp [Dma.OS.sameFile, oneFile]
    simp [Dma.scan, table1, region1, hs]
    decide

theorem again_exec (k : Fd) : exec cfg oneFile { mapped1 with quiesced := true } ⟨hdr 1 2 0 32, mapBody 0x100000, [k]⟩ =
    { st := { mapped1 with quiesced := true }, res := .ok (), out := .bytes [], outFds := [], left := [none],
      evs := ofDma true (.register region1.info) } := by
  obtain ⟨h1, _⟩ := mapped1_facts
  generalize mapped1 = s at h1
  obtain ⟨mg, d, ir, pc, cn, pd, qu, mf, mx⟩ := s
  dsimp only at h1
  subst h1
  unfold exec
  rw [if_pos (show (hdr 1 2 0 32).cmd = Wire.CMD_DMA_MAP from rfl)]
  dsimp only
  unfold dmaMap
  have hb : mapBody 0x100000 ≠ [] := by decide +kernel
  have hl : ¬ ((mapBody 0x100000).length < 32 ∨ leAt (mapBody 0x100000) 0 4 < 32) := by decide +kernel
  rw [if_neg hb, if_neg hl]
  have h := again_map k
  unfold mapReq at h
  dsimp only
  have hc : cfg.dma.hasReg = true := rfl
  rw [hc, h]
  rfl

/-- The repeated map succeeds, changes nothing, and closes nothing. -/
theorem again_call (k : Fd) : ∃ evs, call cfg mapped1 (mapWith k) = { st := mapped1, res := .ok (), evs } ∧
    gots evs = [k] ∧ closings evs = [] := by
  obtain ⟨h1, h2, h3, h4, h5⟩ := mapped1_facts
  have he := again_exec k
  generalize mapped1 = s at *
  obtain ⟨mg, d, ir, pc, cn, pd, qu, mf, mx⟩ := s
  dsimp only at h1 h2 h3 h4 h5 he
  subst h1 h2 h3 h4 h5
  unfold mapWith call poll
  dsimp only
  rw [if_neg (by simp), if_neg (by simp)]
  unfold req
  dsimp only
  unfold dispatch
  have hl : (mapBody 0x100000).length = 32 := by decide +kernel
  rw [hl]
  dsimp only
  rw [if_neg (show ¬ shouldExec (some Mig.RUNNING) (hdr 1 2 0 32).cmd = false by decide)]
  have hn : needsQuiesce cfg (St.mk (some Mig.RUNNING) (some table1) ir pc true .none false mf mx)
      ⟨hdr 1 2 0 32, mapBody 0x100000, [k]⟩ = true := rfl
  rw [if_pos hn]
  have hq : oneFile.quiesce 0 = none := rfl
  rw [hq]
  dsimp only
  unfold handleRequest
  rw [he]
  dsimp only
  rw [if_neg (by simp [Res.isFault])]
  unfold finish
  dsimp only
  obtain ⟨ws, hw, _⟩ := doReply_ok cfg oneFile 1
    { mig := some Mig.RUNNING, dma := some table1, irqs := ir, pci := pc, conn := true, pending := .none, quiesced := true,
      maxFds := mf, maxXfer := mx } (hdr 1 2 0 32)
    ⟨by decide, by decide, by decide, by decide, by decide⟩ 0 (by decide) (fun n => rfl)
  have hre : replyErr (.ok ()) = 0 := rfl
  rw [hre, hw]
  dsimp only
  rw [if_neg (by simp [Res.isFault])]
  refine ⟨_, rfl, ?_, ?_⟩
  · rw [gots_cons, gots_append, List.cons_append, List.cons_append, List.cons_append, gots_cons (.exec _), gots_append,
      gots_append, gots_append, gots_sents]
    rfl
  · rw [closings_cons, closings_append, List.cons_append, List.cons_append, List.cons_append, closings_cons (.exec _),
      closings_append, closings_append, closings_append, closings_sents]
    rfl

theorem again_run (ks : List Fd) : (run cfg mapped1 (ks.map mapWith)).1 = mapped1 ∧
    gots (run cfg mapped1 (ks.map mapWith)).2 = ks ∧ closings (run cfg mapped1 (ks.map mapWith)).2 = [] ∧
    Completes cfg mapped1 (ks.map mapWith) := by
  induction ks with
  | nil => exact ⟨rfl, rfl, rfl, trivial⟩
  | cons k ks ih =>
    obtain ⟨evs, h1, h2, h3⟩ := again_call k
    obtain ⟨i1, i2, i3, i4⟩ := ih
    have hc : Completes cfg mapped1 ((k :: ks).map mapWith) :=
      ⟨by rw [h1]; rfl, by rw [h1]; exact i4⟩
    have hr : run cfg mapped1 ((k :: ks).map mapWith) =
        ((run cfg mapped1 (ks.map mapWith)).1, evs ++ .ret :: (run cfg mapped1 (ks.map mapWith)).2) := by
      rw [List.map_cons, run, h1]
      rfl
    rw [hr]
    refine ⟨i1, ?_, ?_, hc⟩
    · show gots (evs ++ .ret :: _) = _
      rw [gots_append, gots_cons, h2, i2]; rfl
    · show closings (evs ++ .ret :: _) = _
      rw [closings_append, closings_cons, h3, i3]; rfl

/-- **C110** does not hold with the repeated map: for every list of further descriptors a client that maps one range, and
then again with each of them in turn, has all its requests succeed; the context holds only the first descriptor and closes
none.  So no bound on the open descriptors of the process exists. -/
theorem C110_hoard_violated (ks : List Fd) :
    let ops := client :: mapWith 5 :: ks.map mapWith
    let r := run cfg (init cfg true (some (8, 2 ^ 40)) pci) ops
    (∀ op ∈ ops, op.OSOk ∧ op.Good Real) ∧ Completes cfg (init cfg true (some (8, 2 ^ 40)) pci) ops ∧
      gots r.2 = 5 :: ks ∧ descs r.1 = [5] ∧ closings r.2 = [] := by
  intro ops r
  obtain ⟨h1, h2, h3, h4⟩ := again_run ks
  have hc0 : (call cfg (init cfg true (some (8, 2 ^ 40)) pci) client).res.isFault = false := by decide +kernel
  have hc1 : (call cfg (call cfg (init cfg true (some (8, 2 ^ 40)) pci) client).st (mapWith 5)).res.isFault = false := by
    decide +kernel
  have hm : (call cfg (call cfg (init cfg true (some (8, 2 ^ 40)) pci) client).st (mapWith 5)).st = mapped1 := by
    unfold mapped1
    rw [run, if_neg (by rw [hc0]; simp), run, if_neg (by rw [hc1]; simp)]
    rfl
  have hr : r = ((run cfg mapped1 (ks.map mapWith)).1,
      (call cfg (init cfg true (some (8, 2 ^ 40)) pci) client).evs ++ .ret ::
        ((call cfg (call cfg (init cfg true (some (8, 2 ^ 40)) pci) client).st (mapWith 5)).evs ++ .ret ::
          (run cfg mapped1 (ks.map mapWith)).2)) := by
    show run cfg _ (client :: mapWith 5 :: ks.map mapWith) = _
    rw [run, if_neg (by rw [hc0]; simp), run, if_neg (by rw [hc1]; simp), hm]
  have hg1 : gots (call cfg (call cfg (init cfg true (some (8, 2 ^ 40)) pci) client).st (mapWith 5)).evs = [5] := by
    decide +kernel
  have hg2 : closings (call cfg (call cfg (init cfg true (some (8, 2 ^ 40)) pci) client).st (mapWith 5)).evs = [] := by
    decide +kernel
  have hos : oneFile.os.Ok := ⟨os_ok.page, os_ok.blk, os_ok.mmap⟩
  have hop : ∀ k, (mapWith k).OSOk ∧ (mapWith k).Good Real := fun k =>
    ⟨fun e he => by cases he; exact hos,
      req_real 1 2 0 _ _ (by decide) (by decide) (by decide) rfl (by decide +kernel) (.inl (by decide +kernel)) (by simp)⟩
  refine ⟨?_, ⟨hc0, hc1, by rw [hm]; exact h4⟩, ?_, ?_, ?_⟩
  · intro op h
    rcases List.mem_cons.mp h with rfl | h
    · exact ⟨(fun e he => by cases he), trivial⟩
    rcases List.mem_cons.mp h with rfl | h
    · exact hop 5
    · obtain ⟨k, _, rfl⟩ := List.mem_map.mp h
      exact hop k
  · rw [hr]
    show gots (_ ++ _) = _
    rw [gots_append, gots_cons, gots_append, hg1, gots_cons .ret (run _ _ _).2, h2]; rfl
  · rw [hr]
    show descs (run cfg mapped1 (ks.map mapWith)).1 = _
    rw [h1]; decide +kernel
  · rw [hr]
    show closings (_ ++ _) = _
    rw [closings_append, closings_cons, closings_append, hg2, closings_cons .ret (run _ _ _).2, h3]; rfl

/-- A clean history meeting the hypotheses: at its end a region holds 5, two vectors 6 and 7, and 9 waits with its request. -/
theorem fdTalk_good : ∀ op ∈ fdTalk, op.Good Real := by
  intro op h
  simp only [fdTalk, session, List.cons_append, List.nil_append, List.mem_cons, List.not_mem_nil, or_false] at h
  rcases h with rfl | rfl | rfl | rfl | rfl | rfl
  · trivial
  all_goals
    exact req_real _ _ _ _ _ (by decide) (by decide) (by decide) rfl (by decide +kernel) (.inl (by decide +kernel))
      (by decide)

example : let r := run cfg (init cfg true (some (8, 2 ^ 40)) pci) fdTalk
    descs r.1 = [5, 6, 7, 9] ∧ closings r.2 = [8] ∧ (gots r.2).length ≤ 1 + (8 + 2 + 2 + 1024) :=
  ⟨by decide +kernel, by decide +kernel, (C110_account cfg true (8, 2 ^ 40) pci fdTalk irq_ok 2
    (by decide) fdTalk_ok fdTalk_good fdTalk_clean fdTalk_completes).2⟩

end

end Verif.Server
