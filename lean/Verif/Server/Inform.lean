import Verif.Server.Access

/-!
# C74: what a client is told about the device, from the received request to the reply -/

namespace Verif.Server
open Verif
open Verif.Dma (Fd)

/-- The reply to `m`: error number, payload and descriptors. -/
def Replies (m : Msg) (e : Nat) (l : List Byte) (fds : List Fd) (o : Out) : Prop :=
  Answered m e l o ∧ ∀ w ∈ sents o.evs, w.fds = fds

/-- Nothing about the device changed and no callback ran. -/
def Untouched (o : Out) (st : St) : Prop := Same4 o.st st ∧ calls o.evs = []

/-- What the handlers of C34, C35, C64, C65 say. -/
def answerOf (cfg : Cfg) (m : Msg) : Res Region.Reply :=
  if m.hdr.cmd = 4 then (Region.deviceInfo true cfg.tbl.length m.body).map (⟨·, []⟩)
  else if m.hdr.cmd = 5 then Region.regionInfo true cfg.tbl m.body
  else if m.hdr.cmd = 6 then Region.regionIoFds true cfg.tbl m.body
  else (Irq.irqInfo cfg.irq true m.body).map (⟨·, []⟩)

theorem answerOf_nofault {cfg : Cfg} (hr : RegsOk cfg.tbl) (m : Msg) : (answerOf cfg m).isFault = false := by
  have fin : ∀ {α : Type} {r : Res α}, (∀ f, r ≠ .fault f) → r.isFault = false := by
    intro α r h; cases r <;> first | rfl | exact absurd rfl (h _)
  unfold answerOf
  split_ifs
  · have h := deviceInfo_nofault true cfg.tbl.length m.body
    cases hx : Region.deviceInfo true cfg.tbl.length m.body <;> first | rfl | exact absurd hx (h _)
  · exact fin (regionInfo_nofault hr true m.body)
  · exact fin (regionIoFds_nofault hr true m.body)
  · have h := irqInfo_nofault cfg.irq true m.body
    cases hx : Irq.irqInfo cfg.irq true m.body <;> first | rfl | exact absurd hx (h _)

theorem answerOf_err {cfg : Cfg} (hr : RegsOk cfg.tbl) {m : Msg} {e : Nat} (h : answerOf cfg m = .err e) : e = EINVAL := by
  unfold answerOf at h
  split_ifs at h
  · unfold Region.deviceInfo at h
    by_cases hb : m.body.length < 16 ∨ leAt m.body 0 4 < 16
    · rw [if_pos hb] at h; cases h; rfl
    · rw [if_neg hb, if_neg (by decide)] at h; cases h
  · by_cases hb : m.body.length < 32 ∨ leAt m.body 0 4 < 32 ∨ cfg.tbl.length ≤ leAt m.body 8 4
    · rw [Region.C34_refused true cfg.tbl m.body hb] at h; cases h; rfl
    · simp only [not_or, not_lt, not_le] at hb
      obtain ⟨reply, hx, _⟩ := Region.C34_info hb.1 hb.2.1 (List.getElem?_eq_getElem hb.2.2)
        (hr.regs _ (List.getElem_mem hb.2.2))
      rw [hx] at h; cases h
  · by_cases hb : m.body.length < 16 ∨ leAt m.body 4 4 ≠ 0 ∨ leAt m.body 12 4 ≠ 0 ∨ cfg.tbl.length ≤ leAt m.body 8 4 ∨
      leAt m.body 0 4 < 16 ∨ leAt m.body 0 4 > 1048576 ∨ ∃ r, cfg.tbl[leAt m.body 8 4]? = some r ∧ r.flags &&& 63 = 0
    · rw [Region.C35_refused true cfg.tbl m.body hb] at h
      cases h; rfl
    · simp only [not_or, not_exists, not_and, not_lt, not_le, not_not] at hb
      obtain ⟨b1, b2, b3, b4, b5, b6, b7⟩ := hb
      have hl := List.getElem?_eq_getElem b4
      obtain ⟨c1, c2⟩ := hr.subs _ (List.getElem_mem b4)
      by_cases hfit : 16 + 48 * cfg.tbl[leAt m.body 8 4].subs.length ≤ leAt m.body 0 4
      · obtain ⟨reply, fds, hx, _⟩ := Region.C35_complete b1 b2 b3 hl (b7 _ hl) c1 hfit b6
        rw [hx] at h; cases h
      · rw [Region.C35_no_room b1 b2 b3 hl (b7 _ hl) b5 (by omega) b6 c2] at h
        cases h
  · unfold Irq.irqInfo at h
    by_cases hb : m.body.length < 16 ∨ leAt m.body 0 4 < 16
    · rw [if_pos hb] at h; cases h; rfl
    · rw [if_neg hb] at h
      dsimp only at h
      by_cases hi : leAt m.body 8 4 ≥ Irq.NUM_IRQS
      · rw [if_pos hi] at h; cases h; rfl
      · rw [if_neg hi, if_neg (by decide)] at h; cases h

/-- The four requests for information. -/
def Asks (m : Msg) : Prop := m.hdr.cmd = 4 ∨ m.hdr.cmd = 5 ∨ m.hdr.cmd = 6 ∨ m.hdr.cmd = 7

theorem exec_answer {cfg : Cfg} {env : Env} (ha : env.alloc = true) {st : St} {m : Msg} (hm : Asks m) :
    exec cfg env st m =
      { st, res := (answerOf cfg m).map (fun _ => ()),
        out := .bytes (match answerOf cfg m with | .ok r => r.body | _ => []),
        outFds := (match answerOf cfg m with | .ok r => r.fds | _ => []), left := m.fds.map some, evs := [] } := by
  unfold exec answerOf
  rcases hm with h | h | h | h
  · rw [h]
    simp only [Wire.CMD_DMA_MAP, Wire.CMD_DMA_UNMAP, Wire.CMD_GET_INFO, getInfo, ha, nullOut_bytes, Done.pure]
    cases Region.deviceInfo true cfg.tbl.length m.body <;> rfl
  · rw [h]
    simp only [Wire.CMD_DMA_MAP, Wire.CMD_DMA_UNMAP, Wire.CMD_GET_INFO, Wire.CMD_REGION_INFO, regionInfo, ha, nullOut_bytes,
      Done.reply]
    cases Region.regionInfo true cfg.tbl m.body <;> rfl
  · rw [h]
    simp only [Wire.CMD_DMA_MAP, Wire.CMD_DMA_UNMAP, Wire.CMD_GET_INFO, Wire.CMD_REGION_INFO, Wire.CMD_REGION_IO_FDS,
      regionIoFds, ha, nullOut_bytes, Done.reply]
    cases Region.regionIoFds true cfg.tbl m.body <;> rfl
  · rw [h]
    simp only [Wire.CMD_DMA_MAP, Wire.CMD_DMA_UNMAP, Wire.CMD_GET_INFO, Wire.CMD_REGION_INFO, Wire.CMD_REGION_IO_FDS,
      Wire.CMD_IRQ_INFO, irqInfo, ha, nullOut_bytes, Done.pure]
    cases Irq.irqInfo cfg.irq true m.body <;> rfl

theorem asks_quiesce {cfg : Cfg} {st : St} {m : Msg} (hm : Asks m) : needsQuiesce cfg st m = false := by
  unfold needsQuiesce
  rcases hm with h | h | h | h <;> rw [h] <;> simp [Wire.CMD_DMA_MAP, Wire.CMD_DMA_UNMAP, Wire.CMD_RESET,
    Wire.CMD_REGION_WRITE, Wire.CMD_FEATURE]

section
variable {cfg : Cfg} (ht : TableOk cfg.tbl) (hr : RegsOk cfg.tbl) {env : Env} {st : St} {m : Msg}
  (hn : Next cfg env st m)
include ht hr hn

theorem answered (hm : Asks m) :
    let o := call cfg st (.run env (.req m.hdr m.body m.fds))
    Untouched o st ∧ (∀ r fds, answerOf cfg m = .ok r → r.fds = fds.map some → Replies m 0 r.body fds o) ∧
      (∀ e, answerOf cfg m = .err e → e < U32 → Replies m e [] [] o) := by
  intro o
  have hex := exec_answer (cfg := cfg) hn.fair.alloc (st := ready cfg st m) hm
  have hno := answerOf_nofault hr m
  obtain ⟨l, sv⟩ := hn.served ht (by
    rw [hex]; dsimp only
    cases h : answerOf cfg m <;> first | rfl | (rw [h] at hno; cases hno))
  have t := sv.tables
  have hc := sv.calls
  have hre := sv.reply
  have hou := sv.out
  have hf := sv.fds
  rw [asks_quiesce hm] at hc
  rw [hex] at t hc hre hou hf
  dsimp only at t hc hre hou hf
  refine ⟨⟨⟨t.mig, t.dma, t.irqs, t.pci⟩, by simpa [calls] using hc⟩, ?_, ?_⟩
  · intro r fds h hfd
    rw [h] at hre hou hf
    cases hou
    refine ⟨hre, fun w hw => ?_⟩
    have := hf w hw
    dsimp only at this
    rw [hfd] at this
    exact List.map_injective_iff.2 (Option.some_injective _) this
  · intro e h hlt
    rw [h] at hre hou hf
    cases hou
    refine ⟨by simpa [Res.map, replyErr, Nat.mod_eq_of_lt hlt] using hre, fun w hw => ?_⟩
    have := hf w hw
    simpa using this

end

/-- C74: the answer to a request for information depends on the set-up of the device and on nothing else: not on what
happened before, not on the client, not on the device's callbacks.  It changes nothing and runs no callback. -/
theorem C74_constant {cfg : Cfg} (ht : TableOk cfg.tbl) (hr : RegsOk cfg.tbl) {m : Msg} (hm : Asks m) :
    ∃ e l fds, ∀ env st, Next cfg env st m →
      Replies m e l fds (call cfg st (.run env (.req m.hdr m.body m.fds))) ∧
      Untouched (call cfg st (.run env (.req m.hdr m.body m.fds))) st := by
  have hno := answerOf_nofault hr m
  cases h : answerOf cfg m with
  | fault f => rw [h] at hno; cases hno
  | err e =>
    have he : e < U32 := by rw [answerOf_err hr h]; decide
    exact ⟨e, [], [], fun env st hn => ⟨(answered ht hr hn hm).2.2 e h he, (answered ht hr hn hm).1⟩⟩
  | ok r =>
    obtain ⟨fds, hf⟩ := (exec_fds cfg Demo.env Demo.st m).2.2 ht
    rw [exec_answer rfl hm, h] at hf
    exact ⟨0, r.body, fds, fun env st hn => ⟨(answered ht hr hn hm).2.1 r fds h hf, (answered ht hr hn hm).1⟩⟩

section
variable {cfg : Cfg} (ht : TableOk cfg.tbl) (hr : RegsOk cfg.tbl) {env : Env} {st : St} {m : Msg}
  (hn : Next cfg env st m)
include ht hr hn

/-- C74, GET_INFO: PCI and reset flags, the number of regions, five interrupt types. -/
theorem C74_device (hcmd : m.hdr.cmd = 4) (hlen : cfg.tbl.length < U32) :
    let o := call cfg st (.run env (.req m.hdr m.body m.fds))
    (m.body.length < 16 ∨ leAt m.body 0 4 < 16 → Replies m EINVAL [] [] o) ∧
    (16 ≤ m.body.length → 16 ≤ leAt m.body 0 4 → ∃ l, Replies m 0 l [] o ∧ l.length = 16 ∧ leAt l 0 4 = 16 ∧
      leAt l 4 4 = 3 ∧ leAt l 8 4 = cfg.tbl.length ∧ leAt l 12 4 = 5) := by
  intro o
  obtain ⟨_, h2, h3⟩ := answered ht hr hn (.inl hcmd)
  unfold answerOf Region.deviceInfo at h2 h3
  rw [if_pos hcmd] at h2 h3
  refine ⟨fun hb => ?_, fun hb1 hb2 => ?_⟩
  · rw [if_pos hb] at h3
    exact h3 EINVAL rfl (by decide)
  · rw [if_neg (by omega), if_neg (by decide)] at h2
    refine ⟨_, h2 ⟨_, []⟩ [] rfl rfl, by simp [enc_length], ?_, ?_, ?_, ?_⟩
    · simp [enc, leAt]
    · simp [enc, leAt]
    · exact leAt_field (enc 4 16 ++ enc 4 3) (enc 4 5) 4 _ 8 (by simp [enc_length]) hlen
    · have := leAt_field (enc 4 16 ++ enc 4 3 ++ enc 4 cfg.tbl.length) [] 4 5 12 (by simp [enc_length]) (by decide)
      rwa [List.append_nil] at this

/-- C74, GET_REGION_INFO. -/
theorem C74_region (hcmd : m.hdr.cmd = 5) :
    let o := call cfg st (.run env (.req m.hdr m.body m.fds))
    (m.body.length < 32 ∨ leAt m.body 0 4 < 32 ∨ cfg.tbl.length ≤ leAt m.body 8 4 → Replies m EINVAL [] [] o) ∧
    (∀ r, 32 ≤ m.body.length → 32 ≤ leAt m.body 0 4 → cfg.tbl[leAt m.body 8 4]? = some r →
      ∃ l fds, Replies m 0 l fds o ∧ l.length ≤ leAt m.body 0 4 ∧ Region.InfoFields l (leAt m.body 8 4) r ∧
        (r.size > 0 → r.areas ≠ [] → Region.needed r ≤ leAt m.body 0 4 →
          (leAt l 4 4).testBit 3 = true ∧ leAt l 12 4 = 32 ∧ l.length = Region.needed r ∧ fds.map some = [r.fd] ∧
          leAt l 32 2 = 1 ∧ leAt l 34 2 = 1 ∧ leAt l 36 4 = 0 ∧ leAt l 40 4 = r.areas.length ∧
          ∀ i (hi : i < r.areas.length), leAt l (48 + 16 * i) 8 = r.areas[i].1 ∧ leAt l (48 + 16 * i + 8) 8 = r.areas[i].2) ∧
        (r.size = 0 ∨ r.areas = [] ∨ leAt m.body 0 4 < Region.needed r →
          (leAt l 4 4).testBit 3 = false ∧ leAt l 12 4 = 0 ∧ fds = [] ∧
          l.length = min (Region.needed r) (leAt m.body 0 4))) := by
  intro o
  obtain ⟨_, h2, h3⟩ := answered ht hr hn (.inr (.inl hcmd))
  have ha : answerOf cfg m = Region.regionInfo true cfg.tbl m.body := by
    unfold answerOf; rw [if_neg (by rw [hcmd]; decide), if_pos hcmd]
  rw [ha] at h2 h3
  refine ⟨fun hb => h3 EINVAL (Region.C34_refused true cfg.tbl m.body hb) (by decide), fun r h4 h5 h6 => ?_⟩
  have hmem := List.mem_of_getElem? h6
  obtain ⟨reply, e1, e2, e3, e4, e5⟩ := Region.C34_info h4 h5 h6 (hr.regs r hmem)
  by_cases hc : r.size > 0 ∧ r.areas ≠ [] ∧ Region.needed r ≤ leAt m.body 0 4
  · obtain ⟨c1, c2, c3⟩ := hc
    obtain ⟨f1, f2, f3, f4, f5⟩ := e4 c1 c2 c3
    obtain ⟨x, hx⟩ := Option.ne_none_iff_exists'.mp (ht r hmem c2)
    refine ⟨reply.body, [x], h2 reply [x] e1 (by rw [f4, hx]; rfl), e2, e3,
      fun _ _ _ => ⟨f1, f2, f3, by rw [hx]; rfl, f5⟩, fun hno => ?_⟩
    rcases hno with h | h | h
    · omega
    · exact absurd h c2
    · omega
  · have hno : r.size = 0 ∨ r.areas = [] ∨ leAt m.body 0 4 < Region.needed r := by
      by_cases c1 : r.size > 0
      · by_cases c2 : r.areas = []
        · exact .inr (.inl c2)
        · exact .inr (.inr (by by_contra h; exact hc ⟨c1, c2, by omega⟩))
      · exact .inl (by omega)
    obtain ⟨f1, f2, f3, f4⟩ := e5 hno
    exact ⟨reply.body, [], h2 reply [] e1 (by rw [f3]; rfl), e2, e3, fun c1 c2 c3 => absurd ⟨c1, c2, c3⟩ hc,
      fun _ => ⟨f1, f2, rfl, f4⟩⟩

/-- C74, GET_REGION_IO_FDS. -/
theorem C74_io_fds (hcmd : m.hdr.cmd = 6) :
    let o := call cfg st (.run env (.req m.hdr m.body m.fds))
    (m.body.length < 16 ∨ leAt m.body 4 4 ≠ 0 ∨ leAt m.body 12 4 ≠ 0 ∨ cfg.tbl.length ≤ leAt m.body 8 4 ∨
      leAt m.body 0 4 < 16 ∨ leAt m.body 0 4 > 1048576 ∨ (∃ r, cfg.tbl[leAt m.body 8 4]? = some r ∧ r.flags &&& 63 = 0) →
      Replies m EINVAL [] [] o) ∧
    (∀ r, 16 ≤ m.body.length → leAt m.body 4 4 = 0 → leAt m.body 12 4 = 0 → cfg.tbl[leAt m.body 8 4]? = some r →
      r.flags &&& 63 ≠ 0 → 16 + 48 * r.subs.length ≤ leAt m.body 0 4 → leAt m.body 0 4 ≤ 1048576 →
      ∃ l fds, Replies m 0 l fds o ∧ l.length = 16 + 48 * r.subs.length ∧ leAt l 0 4 = 16 + 48 * r.subs.length ∧
        leAt l 4 4 = 0 ∧ leAt l 8 4 = leAt m.body 8 4 ∧ leAt l 12 4 = r.subs.length ∧
        fds.Nodup ∧ (∀ x ∈ fds, ∃ s ∈ r.subs, s.fd = some x ∨ s.shadowFd = some x) ∧
        (∀ i (hi : i < r.subs.length), Region.Described l (16 + 48 * i) fds r.subs[i])) ∧
    (∀ r, 16 ≤ m.body.length → leAt m.body 4 4 = 0 → leAt m.body 12 4 = 0 → cfg.tbl[leAt m.body 8 4]? = some r →
      r.flags &&& 63 ≠ 0 → 16 ≤ leAt m.body 0 4 → leAt m.body 0 4 < 16 + 48 * r.subs.length → leAt m.body 0 4 ≤ 1048576 →
      Replies m 0 (enc 4 (16 + 48 * r.subs.length) ++ enc 4 0 ++ enc 4 (leAt m.body 8 4) ++ enc 4 r.subs.length) [] o) := by
  intro o
  obtain ⟨_, h2, h3⟩ := answered ht hr hn (.inr (.inr (.inl hcmd)))
  have ha : answerOf cfg m = Region.regionIoFds true cfg.tbl m.body := by
    unfold answerOf
    rw [if_neg (by rw [hcmd]; decide), if_neg (by rw [hcmd]; decide), if_pos hcmd]
  rw [ha] at h2 h3
  refine ⟨fun hb => h3 EINVAL (Region.C35_refused true cfg.tbl m.body hb) (by decide), ?_, ?_⟩
  · intro r b1 b2 b3 b4 b5 b6 b7
    obtain ⟨reply, fds, e1, e2⟩ := Region.C35_complete b1 b2 b3 b4 b5 (hr.subs r (List.mem_of_getElem? b4)).1 b6 b7
    exact ⟨reply, fds, h2 _ fds e1 rfl, e2⟩
  · intro r b1 b2 b3 b4 b5 b6 b7 b8
    exact h2 _ [] (Region.C35_no_room b1 b2 b3 b4 b5 b6 b7 b8 (hr.subs r (List.mem_of_getElem? b4)).2) rfl

/-- C74, GET_IRQ_INFO: the number of vectors set up for the type. -/
theorem C74_irq (hi : cfg.irq.Ok) (hcmd : m.hdr.cmd = 7) :
    let o := call cfg st (.run env (.req m.hdr m.body m.fds))
    (m.body.length < 16 ∨ leAt m.body 0 4 < 16 ∨ 5 ≤ leAt m.body 8 4 → Replies m EINVAL [] [] o) ∧
    (16 ≤ m.body.length → 16 ≤ leAt m.body 0 4 → leAt m.body 8 4 < 5 →
      ∃ l, Replies m 0 l [] o ∧ l.length = 16 ∧ leAt l 0 4 = 16 ∧ leAt l 4 4 = 1 ∧ leAt l 8 4 = leAt m.body 8 4 ∧
        leAt l 12 4 = cfg.irq.cnt (leAt m.body 8 4)) := by
  intro o
  obtain ⟨_, h2, h3⟩ := answered ht hr hn (.inr (.inr (.inr hcmd)))
  have ha : answerOf cfg m = (Irq.irqInfo cfg.irq true m.body).map (⟨·, []⟩) := by
    unfold answerOf
    rw [if_neg (by rw [hcmd]; decide), if_neg (by rw [hcmd]; decide), if_neg (by rw [hcmd]; decide)]
  rw [ha] at h2 h3
  obtain ⟨g1, g2⟩ := Irq.C64_info (fun i => lt_of_lt_of_le (hi.small i) (by decide)) m.body
  refine ⟨fun hb => h3 EINVAL (by rw [g1 hb]; rfl) (by decide), fun b1 b2 b3 => ?_⟩
  obtain ⟨l, e1, e2⟩ := g2 b1 b2 b3
  exact ⟨l, h2 ⟨l, []⟩ [] (by rw [e1]; rfl) rfl, e2⟩

end

section
open Demo

/-- A device with a mappable region and an eventfd, asked in the middle of a session. -/
def tableDev : Cfg := { cfg with tbl := Region.tbl0 }

theorem tableDev_ok : TableOk tableDev.tbl ∧ RegsOk tableDev.tbl := by
  refine ⟨fun r hr => ?_, ⟨fun r hr => ?_, fun r hr => ?_⟩⟩
  · have : ∀ r ∈ tableDev.tbl, r.areas ≠ [] → r.fd ≠ none := by decide
    exact this r hr
  · have : ∀ r ∈ tableDev.tbl, r.size < U32 ∧ r.offset < U64 ∧ 48 + 16 * r.areas.length < U32 ∧
        ∀ a ∈ r.areas, a.1 < U64 ∧ a.2 < U64 := by decide
    obtain ⟨h1, h2, h3, h4⟩ := this r hr
    exact ⟨h1, h2, h3, h4⟩
  · have : ∀ r ∈ tableDev.tbl, (∀ s ∈ r.subs, s.gpaOffset < U64 ∧ s.size < U64 ∧ s.flags < U32 ∧ s.shadowOffset < U64 ∧
        s.datamatch < U64) ∧ 16 + 48 * r.subs.length < U32 := by decide
    obtain ⟨h1, h2⟩ := this r hr
    exact ⟨fun s hs => ⟨(h1 s hs).1, (h1 s hs).2.1, (h1 s hs).2.2.1, (h1 s hs).2.2.2.1, (h1 s hs).2.2.2.2⟩, h2⟩

theorem tableDev_next (cmd : Nat) (body : List Byte) (h2 : cmd < 65536) (h5 : body.length ≤ 1048576 + 16) (h6 : body ≠ []) :
    Next tableDev env (run tableDev (init tableDev true (some (8, 2 ^ 40)) pci) session).1
      ⟨hdr 7 cmd 0 body.length, body, []⟩ :=
  next_req env_fair rfl rfl ⟨by decide +kernel, by decide +kernel⟩ (by decide +kernel) _ _ _ _ (by decide) h2 h5 h6 (by simp)

/-- The two areas and the descriptor of region 0. -/
example :
    let m : Msg := ⟨hdr 7 5 0 32, enc 4 80 ++ enc 4 0 ++ enc 4 0 ++ enc 4 0 ++ enc 8 0 ++ enc 8 0, []⟩
    let o := call tableDev (run tableDev (init tableDev true (some (8, 2 ^ 40)) pci) session).1
      (.run env (.req m.hdr m.body m.fds))
    ∃ l, Replies m 0 l [5] o ∧ leAt l 40 4 = 2 ∧ leAt l 64 8 = 24 ∧ leAt l 72 8 = 8 := by
  intro m o
  have h := (C74_region tableDev_ok.1 tableDev_ok.2 (m := m) (tableDev_next 5 m.body (by decide) (by decide) (by decide)) rfl).2
    Region.tbl0[0] (by decide) (by decide) (by decide)
  obtain ⟨l, fds, h1, _, _, h2, _⟩ := h
  obtain ⟨_, _, _, h3, _, _, _, h4, h5⟩ := h2 (by decide) (by decide) (by decide)
  have hf : fds = [5] := List.map_injective_iff.2 (Option.some_injective _) h3
  have h6 := h5 1 (by decide)
  exact ⟨l, hf ▸ h1, h4, h6.1, h6.2⟩

/-- The same answer for ever. -/
example : ∃ e l fds, ∀ ops,
    let m : Msg := ⟨hdr 7 7 0 16, enc 4 16 ++ enc 4 0 ++ enc 4 2 ++ enc 4 0, []⟩
    let st := (run tableDev (init tableDev true (some (8, 2 ^ 40)) pci) ops).1
    Awaits st → st.mig = some 2 → Replies m e l fds (call tableDev st (.run env (.req m.hdr m.body m.fds))) := by
  obtain ⟨e, l, fds, h⟩ := C74_constant tableDev_ok.1 tableDev_ok.2
    (m := ⟨hdr 7 7 0 16, enc 4 16 ++ enc 4 0 ++ enc 4 2 ++ enc 4 0, []⟩) (.inr (.inr (.inr rfl)))
  exact ⟨e, l, fds, fun ops ha hm => (h env _ (next_req (fds := []) env_fair rfl rfl ha hm 7 7
    (enc 4 16 ++ enc 4 0 ++ enc 4 2 ++ enc 4 0) (by decide) (by decide) (by decide) (by decide) (by decide))).1⟩

end

end Verif.Server
