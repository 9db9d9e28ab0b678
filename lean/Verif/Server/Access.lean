import Verif.Server.Serve
import Verif.Server.Crashes
import Verif.Region.Props
import Mathlib.Data.Nat.Bitwise

/-!
# C73: region accesses, from the received request to the reply -/

namespace Verif.Server
open Verif
open Verif.Dma (Fd)

/-- The callbacks a client's request makes the library run first: the quiesce callback, if the request needs it. -/
def before (cfg : Cfg) (st : St) (m : Msg) : List Call := if needsQuiesce cfg st m = true then [.quiesce none] else []

/-- The buffer a handler is given: the payload of a write, zeroes for a read. -/
def given (m : Msg) : List Byte :=
  if m.hdr.cmd = 10 then m.body.drop 16 else List.replicate (leAt m.body 12 4) 0#8

/-- The reply to a successful access: the 16 bytes of the request, then the data read. -/
def accessReply (m : Msg) (data : List Byte) : List Byte := m.body.take 16 ++ if m.hdr.cmd = 10 then [] else data

/-- What handler and request make of each other: `count` bytes handled is success, anything else EINVAL, an error is passed
on. -/
def Settled (m : Msg) (ret : Res Nat) (data : List Byte) (o : Out) : Prop :=
  (ret = .ok (leAt m.body 12 4) → (m.hdr.cmd = 9 → data.length = leAt m.body 12 4) → Answered m 0 (accessReply m data) o) ∧
  (∀ n, ret = .ok n → n ≠ leAt m.body 12 4 → ∃ l, Answered m EINVAL l o) ∧
  (∀ e, ret = .err e → e < U32 → ∃ l, Answered m e l o)

theorem exec_access {cfg : Cfg} {env : Env} {st : St} {m : Msg} (hc : m.hdr.cmd = 9 ∨ m.hdr.cmd = 10) :
    exec cfg env st m = access cfg env st (decide (m.hdr.cmd = 10)) m.body m.fds := by
  unfold exec
  rcases hc with h | h <;> rw [h] <;> rfl

theorem request_bytes {body : List Byte} (h : 16 ≤ body.length) :
    enc 8 (leAt body 0 8) ++ enc 4 (leAt body 8 4) ++ enc 4 (leAt body 12 4) = body.take 16 := by
  have h1 : body.take 16 = body.take 12 ++ (body.drop 12).take 4 := List.take_add (l := body) (i := 12) (j := 4)
  have h2 : body.take 12 = body.take 8 ++ (body.drop 8).take 4 := List.take_add (l := body) (i := 8) (j := 4)
  rw [enc_leAt body 8 0 (by omega), enc_leAt body 4 8 (by omega), enc_leAt body 4 12 (by omega), h1, h2]
  rfl

theorem and_eight (n : Nat) : n &&& 8 = 0 ↔ n.testBit 3 = false := by
  have h : n &&& 2 ^ 3 = (n.testBit 3).toNat * 2 ^ 3 := Nat.and_two_pow n 3
  rw [show (8 : Nat) = 2 ^ 3 from rfl, h]
  cases n.testBit 3 <;> simp

/-- A valid access of at least one byte, by what serves it. -/
theorem handleAccess_eq {tbl : List Region.Reg} (hs : ∀ r ∈ tbl, r.size < U32) (h : Region.Handler) {sc w : Bool}
    {body : List Byte} {r : Region.Reg} (hok : Region.AccessOk tbl sc w body r) (hz : leAt body 12 4 ≠ 0) :
    Region.handleAccess h true tbl sc w body =
      match Region.served r w body with
      | none => (.err EINVAL, [])
      | some c => (match (h c).1 with
          | .ok n => if n ≠ leAt body 12 4 then .err EINVAL
            else .ok (body.take 16 ++ if w then [] else Region.fit (leAt body 12 4) (h c).2)
          | .err e => .err e
          | .fault f => .fault f, [c]) := by
  have hv := (Region.validAccess_iff hs sc w body).2 ⟨r, hok⟩
  have h0 : body ≠ [] := by rintro rfl; have := hok.len; simp at this
  unfold Region.handleAccess
  rw [if_neg h0, if_neg (by rw [hv]; decide)]
  dsimp only
  rw [if_neg hz, if_neg (by decide), hok.region]
  dsimp only
  rw [Region.regionAccess_eq]
  cases Region.served r w body with
  | none => rfl
  | some c =>
    dsimp only
    rw [request_bytes hok.len]
    cases (h c).1 with
    | ok n => dsimp only; split_ifs <;> rfl
    | err e => rfl
    | fault f => rfl

/-- The state the request finds is that of the library but for `quiesced`. -/
theorem ready_tables (cfg : Cfg) (st : St) (m : Msg) : (ready cfg st m).mig = st.mig ∧ (ready cfg st m).dma = st.dma ∧
    (ready cfg st m).irqs = st.irqs ∧ (ready cfg st m).pci = st.pci ∧ (ready cfg st m).maxXfer = st.maxXfer :=
  ⟨rfl, rfl, rfl, rfl, rfl⟩

section
variable {cfg : Cfg} (ht : TableOk cfg.tbl) (hs : ∀ r ∈ cfg.tbl, r.size < U32) {env : Env} {st : St} {m : Msg}
  (hn : Next cfg env st m) (hc : m.hdr.cmd = 9 ∨ m.hdr.cmd = 10)
include ht hn hc

/-- The access, with the outcome of its handler. -/
theorem access_served (hno : (Region.handleAccess (handlers cfg env st.pci) true cfg.tbl (decide (st.mig = some 3))
      (decide (m.hdr.cmd = 10)) m.body).1.isFault = false) :
    let h := Region.handleAccess (handlers cfg env st.pci) true cfg.tbl (decide (st.mig = some 3))
      (decide (m.hdr.cmd = 10)) m.body
    let o := call cfg st (.run env (.req m.hdr m.body m.fds))
    let a := afterCalls cfg env (ready cfg st m).quiesced st.pci h.2
    o.st.mig = st.mig ∧ o.st.dma = st.dma ∧ o.st.irqs = st.irqs ∧ o.st.pci = a.1 ∧
      calls o.evs = before cfg st m ++ calls a.2 ∧
      (∀ l, h.1 = .ok l → Answered m 0 l o) ∧
      (∀ e, h.1 = .err e → e < U32 → ∃ l, Answered m e l o ∧
        accessErrOut (handlers cfg env st.pci) true cfg.tbl (decide (st.mig = some 3)) (decide (m.hdr.cmd = 10)) m.body =
          .bytes l) := by
  intro h o a
  have hsc : stopCopy (ready cfg st m).mig = decide (st.mig = some 3) := by
    unfold stopCopy
    rw [(ready_tables cfg st m).1]
    exact beq_eq_decide ..
  have hex := exec_access (cfg := cfg) (env := env) (st := ready cfg st m) hc
  unfold access at hex
  rw [hsc, hn.fair.alloc] at hex
  dsimp only at hex
  change exec cfg env (ready cfg st m) m = Done.pure _ m.fds h.1 _ _ at hex
  have hno' : h.1.isFault = false := hno
  obtain ⟨l, sv⟩ := hn.served ht (by
    rw [hex]; unfold Done.pure; dsimp only
    cases hr : h.1 <;> first | rfl | (rw [hr] at hno'; cases hno'))
  obtain ⟨t1, t2, t3, t4⟩ := sv.tables
  have hsvc := sv.calls
  have hre := sv.reply
  have hou := sv.out
  rw [hex] at t1 t2 t3 t4 hsvc hre hou
  unfold Done.pure at t1 t2 t3 t4 hsvc hre hou
  dsimp only at t1 t2 t3 t4 hsvc hre hou
  refine ⟨t1, t2, t3, t4, hsvc, ?_, ?_⟩
  · intro l' hl
    rw [hl] at hou hre
    cases hou
    exact hre
  · intro e he hlt
    rw [he] at hou hre
    refine ⟨l, ?_, hou⟩
    simpa [Res.map, replyErr, Nat.mod_eq_of_lt hlt] using hre

/-- Nothing of the device changed but, possibly, its config space. -/
def OnlyConfig (o : Out) (st : St) : Prop := o.st.mig = st.mig ∧ o.st.dma = st.dma ∧ o.st.irqs = st.irqs

include hs in
/-- C73: an access that is not entirely inside a region, or of more than 1 MiB, or made in the state STOP_COPY (3), or whose
payload is not as long as it says, is answered EINVAL; no region callback runs. -/
theorem C73_refused
    (hbad : ¬ ∃ r, Region.AccessOk cfg.tbl (decide (st.mig = some 3)) (decide (m.hdr.cmd = 10)) m.body r) :
    let o := call cfg st (.run env (.req m.hdr m.body m.fds))
    Answered m EINVAL [] o ∧ calls o.evs = before cfg st m ∧ OnlyConfig o st ∧ o.st.pci = st.pci := by
  intro o
  have h0 : m.body ≠ [] := careful_body hn.real (by rcases hc with h | h <;> rw [h] <;> decide)
  have hr := Region.C32_refused hs (handlers cfg env st.pci) true (decide (st.mig = some 3)) (decide (m.hdr.cmd = 10)) h0 hbad
  obtain ⟨h1, h2, h3, h4, h5, _, h7⟩ := access_served ht hn hc (by rw [hr]; rfl)
  rw [hr] at h4 h5 h7
  obtain ⟨l, h8, h9⟩ := h7 EINVAL rfl (by decide)
  have hv : Region.validAccess cfg.tbl (decide (st.mig = some 3)) (decide (m.hdr.cmd = 10)) m.body = false := by
    rw [← Region.validAccess_iff hs] at hbad
    simpa using hbad
  unfold accessErrOut at h9
  rw [if_pos (.inl hv)] at h9
  cases h9
  exact ⟨h8, by simpa [afterCalls, calls] using h5, ⟨h1, h2, h3⟩, h4⟩

include hs in
/-- C73: an access of no bytes succeeds and does nothing. -/
theorem C73_empty {r : Region.Reg}
    (hok : Region.AccessOk cfg.tbl (decide (st.mig = some 3)) (decide (m.hdr.cmd = 10)) m.body r)
    (hz : leAt m.body 12 4 = 0) :
    let o := call cfg st (.run env (.req m.hdr m.body m.fds))
    Answered m 0 [] o ∧ calls o.evs = before cfg st m ∧ OnlyConfig o st ∧ o.st.pci = st.pci := by
  intro o
  have hr := Region.C33_empty hs (handlers cfg env st.pci) true hok hz
  obtain ⟨h1, h2, h3, h4, h5, h6, _⟩ := access_served ht hn hc (by rw [hr]; rfl)
  rw [hr] at h4 h5 h6
  exact ⟨h6 [] rfl, by simpa [afterCalls, calls] using h5, ⟨h1, h2, h3⟩, h4⟩

include hs in
/-- C73: an access to a region served by its callback runs this callback, once, with the request's region, offset, data and
direction, and the reply says what the callback said. -/
theorem C73_callback {r : Region.Reg}
    (hok : Region.AccessOk cfg.tbl (decide (st.mig = some 3)) (decide (m.hdr.cmd = 10)) m.body r)
    (hz : leAt m.body 12 4 ≠ 0) (hcb : r.hasCb = true) (hcf : leAt m.body 8 4 ≠ 7 ∨ r.flags.testBit 3 = true)
    (hdev : (env.region (leAt m.body 8 4) (leAt m.body 0 8) (given m) (decide (m.hdr.cmd = 10))).1.isFault = false) :
    let o := call cfg st (.run env (.req m.hdr m.body m.fds))
    let v := env.region (leAt m.body 8 4) (leAt m.body 0 8) (given m) (decide (m.hdr.cmd = 10))
    Settled m v.1 v.2 o ∧
      calls o.evs = before cfg st m ++
        [.region (leAt m.body 8 4) (leAt m.body 0 8) (given m) (decide (m.hdr.cmd = 10))] ∧
      OnlyConfig o st ∧ o.st.pci = st.pci := by
  intro o v
  have hg : (if decide (m.hdr.cmd = 10) = true then m.body.drop 16 else List.replicate (leAt m.body 12 4) 0#8) = given m := by
    unfold given; simp
  have hserved : Region.served r (decide (m.hdr.cmd = 10)) m.body =
      some (.cb (leAt m.body 8 4) (leAt m.body 0 8) (given m) (decide (m.hdr.cmd = 10))) := by
    unfold Region.served
    dsimp only
    rw [if_neg, if_pos hcb, hg]
    rintro ⟨h1, h2⟩
    rcases hcf with h | h
    · exact h h1
    · rw [(and_eight _).1 h2] at h; cases h
  have heq := handleAccess_eq hs (handlers cfg env st.pci) hok hz
  rw [hserved] at heq
  dsimp only [handlers] at heq
  change Region.handleAccess _ _ _ _ _ _ = (match v.1 with
      | .ok n => if n ≠ leAt m.body 12 4 then Res.err EINVAL
        else .ok (m.body.take 16 ++ if decide (m.hdr.cmd = 10) = true then [] else Region.fit (leAt m.body 12 4) v.2)
      | .err e => .err e
      | .fault f => .fault f, _) at heq
  change v.1.isFault = false at hdev
  obtain ⟨h1, h2, h3, h4, h5, h6, h7⟩ := access_served ht hn hc (by
    rw [heq]
    cases hv : v.1 with
    | ok n => dsimp only; split_ifs <;> rfl
    | err e => rfl
    | fault f => rw [hv] at hdev; cases hdev)
  rw [heq] at h4 h5 h6 h7
  refine ⟨⟨fun hr hl => ?_, fun n hr hne => ?_, fun e hr hlt => ?_⟩, h5, ⟨h1, h2, h3⟩, h4⟩
  · refine h6 _ ?_
    rw [hr]
    dsimp only
    rw [if_neg (by simp)]
    unfold accessReply
    rcases hc with hc | hc
    · rw [Region.fit_self (hl hc)]; simp
    · simp [hc]
  · obtain ⟨l, hl, _⟩ := h7 EINVAL (by rw [hr]; exact if_pos hne) (by decide)
    exact ⟨l, hl⟩
  · obtain ⟨l, hl, _⟩ := h7 e (by rw [hr]) hlt
    exact ⟨l, hl⟩

include hs in
/-- C73: a region without callback refuses accesses with EINVAL. -/
theorem C73_nobody {r : Region.Reg}
    (hok : Region.AccessOk cfg.tbl (decide (st.mig = some 3)) (decide (m.hdr.cmd = 10)) m.body r)
    (hz : leAt m.body 12 4 ≠ 0) (hcb : r.hasCb = false) (hcf : leAt m.body 8 4 ≠ 7 ∨ r.flags.testBit 3 = true) :
    let o := call cfg st (.run env (.req m.hdr m.body m.fds))
    (∃ l, Answered m EINVAL l o) ∧ calls o.evs = before cfg st m ∧ OnlyConfig o st ∧ o.st.pci = st.pci := by
  intro o
  have hserved : Region.served r (decide (m.hdr.cmd = 10)) m.body = none := by
    unfold Region.served
    dsimp only
    rw [if_neg, if_neg (by rw [hcb]; simp)]
    rintro ⟨h1, h2⟩
    rcases hcf with h | h
    · exact h h1
    · rw [(and_eight _).1 h2] at h; cases h
  have heq := handleAccess_eq hs (handlers cfg env st.pci) hok hz
  rw [hserved] at heq
  dsimp only at heq
  obtain ⟨h1, h2, h3, h4, h5, h6, h7⟩ := access_served ht hn hc (by rw [heq]; rfl)
  rw [heq] at h4 h5 h6 h7
  obtain ⟨l, hl, _⟩ := h7 EINVAL rfl (by decide)
  exact ⟨⟨l, hl⟩, by simpa [afterCalls, calls] using h5, ⟨h1, h2, h3⟩, h4⟩

include hs in
/-- C73: an access to the config space is what the emulation of C37-C46 makes of it. -/
theorem C73_config {r : Region.Reg}
    (hok : Region.AccessOk cfg.tbl (decide (st.mig = some 3)) (decide (m.hdr.cmd = 10)) m.body r)
    (hz : leAt m.body 12 4 ≠ 0) (hcf : leAt m.body 8 4 = 7) (hfl : r.flags.testBit 3 = false)
    (hdev : (Pci.access (pciDev cfg env) st.pci (given m) (leAt m.body 12 4) (leAt m.body 0 8)
      (decide (m.hdr.cmd = 10))).ret.isFault = false) :
    let o := call cfg st (.run env (.req m.hdr m.body m.fds))
    let v := Pci.access (pciDev cfg env) st.pci (given m) (leAt m.body 12 4) (leAt m.body 0 8) (decide (m.hdr.cmd = 10))
    Settled m v.ret v.data o ∧ OnlyConfig o st ∧ o.st.pci = { st.pci with mem := v.mem } ∧
      calls o.evs = before cfg st m ++ calls (v.evs.flatMap (ofPci (ready cfg st m).quiesced)) := by
  intro o v
  have hg : (if decide (m.hdr.cmd = 10) = true then m.body.drop 16 else List.replicate (leAt m.body 12 4) 0#8) = given m := by
    unfold given; simp
  have hlen : (given m).length = leAt m.body 12 4 := by
    unfold given
    split_ifs with h
    · have := hok.payload (by simpa using h)
      rw [List.length_drop, this]; omega
    · simp
  have hserved : Region.served r (decide (m.hdr.cmd = 10)) m.body =
      some (.config (leAt m.body 0 8) (given m) (decide (m.hdr.cmd = 10))) := by
    unfold Region.served
    dsimp only
    rw [if_pos ⟨hcf, (and_eight _).2 hfl⟩, hg]
  have heq := handleAccess_eq hs (handlers cfg env st.pci) hok hz
  rw [hserved] at heq
  dsimp only [handlers] at heq
  rw [hlen] at heq
  change Region.handleAccess _ _ _ _ _ _ = (match v.ret with
      | .ok n => if n ≠ leAt m.body 12 4 then Res.err EINVAL
        else .ok (m.body.take 16 ++ if decide (m.hdr.cmd = 10) = true then [] else Region.fit (leAt m.body 12 4) v.data)
      | .err e => .err e
      | .fault f => .fault f, _) at heq
  change v.ret.isFault = false at hdev
  obtain ⟨h1, h2, h3, h4, h5, h6, h7⟩ := access_served ht hn hc (by
    rw [heq]
    cases hv : v.ret with
    | ok n => dsimp only; split_ifs <;> rfl
    | err e => rfl
    | fault f => rw [hv] at hdev; cases hdev)
  rw [heq] at h4 h5 h6 h7
  dsimp only [afterCalls] at h4 h5
  rw [hlen] at h4 h5
  refine ⟨⟨fun hr hl => ?_, fun n hr hne => ?_, fun e hr hlt => ?_⟩, ⟨h1, h2, h3⟩, h4, by simpa using h5⟩
  · refine h6 _ ?_
    rw [hr]
    dsimp only
    rw [if_neg (by simp)]
    unfold accessReply
    rcases hc with hc | hc
    · rw [Region.fit_self (hl hc)]; simp
    · simp [hc]
  · obtain ⟨l, hl, _⟩ := h7 EINVAL (by rw [hr]; exact if_pos hne) (by decide)
    exact ⟨l, hl⟩
  · obtain ⟨l, hl, _⟩ := h7 e (by rw [hr]) hlt
    exact ⟨l, hl⟩

end

section
open Demo

theorem dev_table : TableOk dev.tbl ∧ ∀ r ∈ dev.tbl, r.size < U32 :=
  ⟨fun r hr => by
    have h : ∀ r ∈ dev.tbl, r.areas = [] := by decide
    exact fun hne => absurd (h r hr) hne, by decide⟩

/-- After the conversation `session` (a region is mapped, interrupts are bound, logging is on). -/
def afterSession : St := (run dev fresh session).1

theorem afterSession_awaits : Awaits afterSession ∧ afterSession.mig = some 2 :=
  ⟨⟨by decide +kernel, by decide +kernel⟩, by decide +kernel⟩

theorem afterSession_next (e : Env) (hf : e.Fair) (ho : e.os = os) (hq : e.quiesce 0 = none) (cmd : Nat) (body : List Byte)
    (h2 : cmd < 65536) (h5 : body.length ≤ 1048576 + 16) (h6 : body ≠ []) :
    Next dev e afterSession ⟨hdr 7 cmd 0 body.length, body, []⟩ :=
  next_req hf ho hq afterSession_awaits.1 afterSession_awaits.2 _ _ _ _ (by decide) h2 h5 h6 (by simp)

/-- The device answers a read of BAR 0 with 1, 2, 3, 4; writes it takes in part. -/
def bar : Env := { env with region := fun _ _ buf w => if w then (.ok 1, buf) else (.ok 4, [1#8, 2#8, 3#8, 4#8]) }

theorem bar_fair : bar.Fair := fair_env rfl rfl rfl (fun _ _ h => by cases h)

example :
    let rd : Msg := ⟨hdr 7 9 0 16, enc 8 0xff8 ++ enc 4 0 ++ enc 4 4, []⟩
    let wr : Msg := ⟨hdr 7 10 0 20, enc 8 0xff8 ++ enc 4 0 ++ enc 4 4 ++ enc 4 5, []⟩
    let over : Msg := ⟨hdr 7 9 0 16, enc 8 0xffe ++ enc 4 0 ++ enc 4 4, []⟩
    Answered rd 0 (rd.body ++ [1#8, 2#8, 3#8, 4#8]) (call dev afterSession (.run bar (.req rd.hdr rd.body rd.fds))) ∧
    (∃ l, Answered wr EINVAL l (call dev afterSession (.run bar (.req wr.hdr wr.body wr.fds)))) ∧
    calls (call dev afterSession (.run bar (.req wr.hdr wr.body wr.fds))).evs = [.region 0 0xff8 (enc 4 5) true] ∧
    Answered over EINVAL [] (call dev afterSession (.run bar (.req over.hdr over.body over.fds))) := by
  intro rd wr over
  have nx := fun cmd body h2 h5 h6 => afterSession_next bar bar_fair rfl rfl cmd body h2 h5 h6
  have hm : decide (afterSession.mig = some 3) = false := by rw [afterSession_awaits.2]; rfl
  have h1 := C73_callback dev_table.1 dev_table.2 (m := rd) (nx 9 rd.body (by decide) (by decide) (by decide)) (.inl rfl)
    (r := { Region.Reg.blank with flags := 3, size := 4096, hasCb := true })
    (by rw [hm]; exact ⟨by decide, by decide, by decide, by decide, by decide, by decide⟩)
    (by decide) (by decide) (by decide) (by decide)
  have h2 := C73_callback dev_table.1 dev_table.2 (m := wr) (nx 10 wr.body (by decide) (by decide) (by decide)) (.inr rfl)
    (r := { Region.Reg.blank with flags := 3, size := 4096, hasCb := true })
    (by rw [hm]; exact ⟨by decide, by decide, by decide, by decide, by decide, by decide⟩)
    (by decide) (by decide) (by decide) (by decide)
  have h3 := C73_refused dev_table.1 dev_table.2 (m := over) (nx 9 over.body (by decide) (by decide) (by decide)) (.inl rfl)
    (by
      rintro ⟨r, hr⟩
      have h1 := hr.region
      have : dev.tbl[leAt over.body 8 4]? = some { Region.Reg.blank with flags := 3, size := 4096, hasCb := true } := by decide
      rw [this] at h1
      cases h1
      exact absurd hr.bound (by decide))
  exact ⟨h1.1.1 rfl (fun _ => rfl), h2.1.2.1 1 rfl (by decide), h2.2.1, h3.1⟩

/-- The interrupt line register (0x3c) holds what was written to it. -/
example :
    let wr : Msg := ⟨hdr 7 10 0 17, enc 8 0x3c ++ enc 4 7 ++ enc 4 1 ++ [11#8], []⟩
    let o := call dev afterSession (.run env (.req wr.hdr wr.body wr.fds))
    Answered wr 0 (wr.body.take 16) o ∧ o.st.pci.mem 0x3c = 11#8 := by
  intro wr o
  have hm : decide (afterSession.mig = some 3) = false := by rw [afterSession_awaits.2]; rfl
  have h := C73_config dev_table.1 dev_table.2 (m := wr)
    (afterSession_next env env_fair rfl rfl 10 wr.body (by decide) (by decide) (by decide)) (.inr rfl)
    (r := { Region.Reg.blank with flags := 3, size := 256 })
    (by rw [hm]; exact ⟨by decide, by decide, by decide, by decide, by decide, by decide⟩)
    (by decide) (by decide) (by decide) (by decide +kernel)
  refine ⟨h.1.1 (by decide +kernel) (fun h => by cases h), ?_⟩
  rw [h.2.2.1]
  decide +kernel

end

end Verif.Server
