import Verif.Server.Migrate

/-!
# C78: interrupts as the client sees them

A client that keeps an account of its eventfds from the requests it sent and the replies it got knows where the device's
interrupts go; and SET_IRQS from the request to the reply. -/

namespace Verif.Server
open Verif
open Verif.Dma (Fd)
open Verif.Irq (Slot place places)

/-! ## The client's account -/

/-- `fds` are assigned to the vectors from `start` on. -/
def assign (a : Slot → Option Fd) (type : Nat) : Nat → List Fd → Slot → Option Fd
  | _, [] => a
  | start, fd :: fds => assign (fun s => if s = place type start then some fd else a s) type (start + 1) fds

/-- The `n` vectors from `start` on are unbound. -/
def unassign (a : Slot → Option Fd) (type start n : Nat) : Slot → Option Fd :=
  fun s => if s ∈ places type start n then none else a s

/-- What an acknowledged SET_IRQS means: the fields of the request are flags (bits 0-2 the data type: 1 none, 2 booleans,
4 eventfds; bits 3-5 the action: 8 mask, 16 unmask, 32 trigger), type, start, count.  The trigger action with eventfds
assigns them; without eventfds it unbinds the vectors named; with count 0 it unbinds all vectors of the type. -/
def rebound (cnt : Nat → Nat) (a : Slot → Option Fd) (m : Msg) : Slot → Option Fd :=
  let flags := leAt m.body 4 4
  let type := leAt m.body 8 4
  let start := leAt m.body 12 4
  let count := leAt m.body 16 4
  if flags &&& 0x38 ≠ 32 then a
  else if m.fds ≠ [] then assign a type start m.fds
  else if flags &&& 7 = 4 then unassign a type start count
  else if count = 0 then unassign a type 0 (cnt type)
  else a

/-- One call, as the client sees it: a new client finds no eventfds; refused requests change nothing. -/
def rebindCall (cnt : Nat → Nat) (a : Slot → Option Fd) (subject : Option Msg) (evs : List Ev) : Slot → Option Fd :=
  if .detach ∈ evs then fun _ => none
  else match subject, sents evs with
    | some m, [w] =>
      if m.hdr.cmd = 8 ∧ (Wire.Hdr.ofBytes w.bytes).flags.testBit 5 = false then rebound cnt a m else a
    | _, _ => a

/-- The account after a history. -/
def wired (cfg : Cfg) : (Slot → Option Fd) → St → List Op → Slot → Option Fd
  | a, _, [] => a
  | a, st, op :: ops =>
    wired cfg (rebindCall cfg.irq.cnt a (op.subject st) (call cfg st op).evs) (call cfg st op).st ops

/-- The client wants replies to SET_IRQS (8); it unbinds ranges that start with vector 0 only (C28). -/
def HeardIrq (i : Wire.In) : Prop :=
  Real i ∧ ∀ h body fds, i = .req h body fds → h.cmd = 8 →
    h.noReply = false ∧ (leAt body 4 4 &&& 7 = 4 → fds = [] → leAt body 12 4 = 0)

theorem assign_out {type : Nat} (fds : List Fd) : ∀ (a : Slot → Option Fd) (start : Nat) (s : Slot),
    s ∉ places type start fds.length → assign a type start fds s = a s := by
  induction fds with
  | nil => intro _ _ _ _; rfl
  | cons fd fds ih =>
    intro a start s h
    rw [Irq.mem_places] at h
    unfold assign
    rw [ih _ _ _ (fun h' => h ?_), if_neg (fun hs => h ⟨start, Nat.le_refl _, by simp, hs⟩)]
    obtain ⟨i, h1, h2, h3⟩ := Irq.mem_places.mp h'
    exact ⟨i, by omega, by simp only [List.length_cons]; omega, h3⟩

theorem assign_in {type : Nat} (fds : List Fd) : ∀ (a : Slot → Option Fd) (start : Nat) (j : Nat) (hj : j < fds.length),
    (∀ k < fds.length, place type (start + k) = place type (start + j) → k = j) →
    assign a type start fds (place type (start + j)) = some fds[j] := by
  induction fds with
  | nil => intro _ _ j hj; exact absurd hj (by simp)
  | cons fd fds ih =>
    intro a start j hj hne
    unfold assign
    cases j with
    | zero =>
      rw [assign_out _ _ _ _ (fun h => ?_)]
      · exact if_pos rfl
      · obtain ⟨i, h1, h2, h3⟩ := Irq.mem_places.mp h
        have := hne (i - start) (by simp only [List.length_cons]; omega) (by rw [show start + (i - start) = i by omega]; exact h3.symm)
        omega
    | succ j =>
      have e : start + (j + 1) = start + 1 + j := by omega
      rw [e]
      refine ih _ _ j (by simpa using hj) (fun k hk h => ?_)
      have := hne (k + 1) (by simpa using hk) (by rw [show start + (k + 1) = start + 1 + k by omega, e]; exact h)
      omega

theorem realize_free (c : Irq.Cfg) (s : Slot) : (Irq.realize c).at_ s = none := by
  cases s with
  | err => rfl
  | req => rfl
  | vec i =>
    unfold Irq.Irqs.at_ Irq.Irqs.get Irq.realize
    dsimp only
    rw [List.getElem?_replicate]
    split <;> rfl

/-! ## Requests -/

section
variable {cfg : Cfg} {env : Env} {st : St} {m : Msg}

theorem exec_setIrqs (hc : m.hdr.cmd = 8) : exec cfg env st m = setIrqs cfg env st m.body m.fds := by
  unfold exec
  rw [hc]
  rfl

theorem exec_irqs (hc : m.hdr.cmd ≠ 8) : (exec cfg env st m).st.irqs = st.irqs := by
  refine exec_elim (P := fun d => d.st.irqs = st.irqs) cfg env st m ?_ ?_ ?_ ?_ ?_ ?_ ?_ ?_ ?_ ?_ ?_ ?_ ?_ ?_ ?_
  · exact fun _ _ => rfl
  · exact fun c _ _ => dmaMap_elim (P := fun d => d.st.irqs = st.irqs) cfg env st c _ _ (fun _ _ => rfl) (fun _ _ => rfl)
  · exact fun c _ _ => dmaUnmap_elim (P := fun d => d.st.irqs = st.irqs) cfg env st c _ _ (fun _ _ => rfl) (fun _ _ _ _ => rfl)
  iterate 4 exact fun _ => rfl
  · exact fun h => absurd h hc
  iterate 2 exact fun _ => rfl
  · intro _
    show (deviceReset cfg env st .device).1.irqs = st.irqs
    unfold deviceReset
    by_cases h : cfg.hasReset = true
    · rw [if_pos h]
      dsimp only
      cases env.resetCb .device <;> rfl
    · rw [if_neg h]
  iterate 4 exact fun _ => rfl

/-- An accepted request does to the bindings what the client takes it to mean. -/
theorem set_rebinds {c : Irq.Cfg} (hi : c.Ok) {x : Irq.Irqs} (hw : Irq.WF c x) (wr : Nat → Option Nat)
    (hok : Irq.ReqOk c m.body m.fds.length) (h0 : leAt m.body 4 4 &&& 7 = 4 → m.fds = [] → leAt m.body 12 4 = 0) (s : Slot) :
    (Irq.handleSet c wr x m.body (m.fds.map some)).irqs.at_ s = rebound c.cnt x.at_ m s := by
  have hcase := Irq.set_case hi hw.roomy wr hok
  have f1 : (Irq.Req.ofBytes m.body).action = leAt m.body 4 4 &&& 0x38 := rfl
  have f2 : (Irq.Req.ofBytes m.body).data = leAt m.body 4 4 &&& 7 := rfl
  have f3 : (Irq.Req.ofBytes m.body).index = leAt m.body 8 4 := rfl
  have f4 : (Irq.Req.ofBytes m.body).start = leAt m.body 12 4 := rfl
  have f5 : (Irq.Req.ofBytes m.body).count = leAt m.body 16 4 := rfl
  unfold rebound
  generalize Irq.handleSet c wr x m.body (m.fds.map some) = o at hcase
  cases hcase with
  | state ev ha _ =>
    rw [f1] at ha
    rw [if_pos (by omega)]
  | disable st' k ha hd hcl =>
    rw [f1] at ha
    rw [if_neg (by omega)]
    have hfd : m.fds = [] := by
      rcases hd with ⟨h1, h2, _⟩ | ⟨_, h, _⟩
      · by_contra hne
        have := (hok.fds (by rwa [ne_eq, List.length_eq_zero_iff])).1
        rw [h1] at this; cases this
      · exact h
    rw [if_neg (by rw [hfd]; simp)]
    have key : ∀ k', (leAt m.body 12 4 = 0) → k = k' → st'.at_ s = unassign x.at_ (leAt m.body 8 4) 0 k' s := by
      intro k' hz hk
      subst hk
      rw [f3, f4, hz, Irq.disSlots_eq, Nat.sub_zero] at hcl
      unfold unassign
      by_cases hs : s ∈ places (leAt m.body 8 4) 0 k
      · rw [if_pos hs]
        unfold Irq.Irqs.at_
        rw [hcl.gone s hs]; rfl
      · rw [if_neg hs]
        unfold Irq.Irqs.at_
        rw [hcl.same s hs]
    rcases hd with ⟨h1, h2, h3, h4⟩ | ⟨h1, h2, h3, h4⟩
    · rw [f2] at h1
      rw [f5] at h2
      rw [f4] at h3
      rw [f3] at h4
      rw [if_neg (by omega), if_pos h2]
      exact key _ h3 h4
    · rw [f2] at h1
      rw [f5] at h4
      rw [if_pos h1, h0 h1 h2]
      exact key _ (h0 h1 h2) h4
  | signal sel ha hf hsel hn h0' =>
    rw [f1] at ha
    rw [if_neg (by omega), if_neg (by rw [hf]; simp), if_neg]
    · exact (congrFun (if_neg h0') s).symm
    rcases hsel with ⟨h, _⟩ | ⟨h, _⟩ <;> rw [f2] at h <;> omega
  | bind st' ha hd hf hlen hl hb hs =>
    rw [f1] at ha
    rw [if_neg (by omega), if_pos hf]
    dsimp only
    by_cases hin : s ∈ places (leAt m.body 8 4) (leAt m.body 12 4) m.fds.length
    · obtain ⟨i, h1, h2, rfl⟩ := Irq.mem_places.mp hin
      have hj : i - leAt m.body 12 4 < m.fds.length := by omega
      have := hb (i - leAt m.body 12 4) hj
      rw [f3, f4, Irq.efdSlot_eq, show leAt m.body 12 4 + (i - leAt m.body 12 4) = i by omega] at this
      have h' := assign_in (type := leAt m.body 8 4) m.fds x.at_ (leAt m.body 12 4) (i - leAt m.body 12 4) hj ?_
      · rw [show leAt m.body 12 4 + (i - leAt m.body 12 4) = i by omega] at h'
        rw [h']
        unfold Irq.Irqs.at_
        rw [this]; rfl
      · intro k hk he
        by_cases h34 : leAt m.body 8 4 = 3 ∨ leAt m.body 8 4 = 4
        · have := (hok.special h34).2
          omega
        · have h5 := hok.index
          rw [f3] at h5
          have h3 : leAt m.body 8 4 < 3 := by omega
          rw [Irq.place_lt3 _ h3, Irq.place_lt3 _ h3] at he
          injection he with he
          omega
    · rw [assign_out _ _ _ _ hin]
      unfold Irq.Irqs.at_
      rw [hs s (by rw [f3, f4, ← hlen, Irq.disSlots_eq]; exact hin)]

/-- What the reply to `exec` tells the client agrees with what `exec` did. -/
theorem exec_rebinds (hi : cfg.irq.Ok) (hw : Irq.WF cfg.irq st.irqs) (hno : (exec cfg env st m).res.isFault = false)
    (h0 : m.hdr.cmd = 8 → leAt m.body 4 4 &&& 7 = 4 → m.fds = [] → leAt m.body 12 4 = 0) {w : Wire.Sent} {l : List Byte}
    (ht : Tells w (replyErr (exec cfg env st m).res % U32) l) (s : Slot) :
    (exec cfg env st m).st.irqs.at_ s =
      (if m.hdr.cmd = 8 ∧ (Wire.Hdr.ofBytes w.bytes).flags.testBit 5 = false then rebound cfg.irq.cnt st.irqs.at_ m
        else st.irqs.at_) s := by
  by_cases hc : m.hdr.cmd = 8
  · rw [exec_setIrqs hc] at hno ht ⊢
    have hres : (setIrqs cfg env st m.body m.fds).res =
        (Irq.handleSet cfg.irq env.eventfd st.irqs m.body (m.fds.map some)).res := rfl
    show (Irq.handleSet cfg.irq env.eventfd st.irqs m.body (m.fds.map some)).irqs.at_ s = _
    by_cases hok : Irq.ReqOk cfg.irq m.body m.fds.length
    · have h1 := set_rebinds hi hw env.eventfd hok (h0 hc) s
      by_cases he : (Wire.Hdr.ofBytes w.bytes).flags.testBit 5 = false
      · rw [if_pos ⟨hc, he⟩]; exact h1
      · rw [if_neg (fun h => he h.2)]
        -- the only failure of an accepted request is a failing signal
        have hcase := Irq.set_case hi hw.roomy env.eventfd hok
        rw [ht.2, hres] at he
        generalize Irq.handleSet cfg.irq env.eventfd st.irqs m.body (m.fds.map some) = o at hcase he
        cases hcase with
        | signal => rfl
        | state => rfl
        | disable => exact absurd (by rfl) he
        | bind => exact absurd (by rfl) he
    · have hb : m.body ≠ [] := by
        intro hb
        rw [hres, hb] at hno
        exact absurd hno (by unfold Irq.handleSet Irq.validate; rw [if_pos rfl]; simp [Res.isFault])
      have h1 := Irq.C26_refused hi.small env.eventfd st.irqs m.fds hb hok
      have he : ¬ (Wire.Hdr.ofBytes w.bytes).flags.testBit 5 = false := by
        rw [ht.2, hres, h1]
        exact (by decide : ¬ decide (EINVAL % U32 ≠ 0) = false)
      rw [if_neg (fun h => he h.2), h1]
  · rw [if_neg (fun h => hc h.1), exec_irqs hc]

end

/-! ## C78: the account -/

theorem call_rebinds {cfg : Cfg} (hi : cfg.irq.Ok) (ht : TableOk cfg.tbl) {dma : Option (Nat × Nat)} {st : St}
    (hr : Reached cfg dma st.dma st.irqs) (hk : KeptGood HeardIrq st) {a : Slot → Option Fd} (hs : st.irqs.at_ = a) (op : Op)
    (ho : op.Fair) (hg : op.Good HeardIrq) (hno : (call cfg st op).res.isFault = false) :
    (call cfg st op).st.irqs.at_ = rebindCall cfg.irq.cnt a (op.subject st) (call cfg st op).evs := by
  have hsub : ∀ m, op.subject st = some m → m.hdr.cmd = 8 →
      m.hdr.noReply = false ∧ (leAt m.body 4 4 &&& 7 = 4 → m.fds = [] → leAt m.body 12 4 = 0) := by
    intro m hm hc
    cases op with
    | run env i =>
      cases i with
      | req h body fds => cases hm; exact hg.2 h body fds rfl hc
      | _ => cases hm
    | quiesced env e =>
      unfold Op.subject at hm
      cases hp : st.pending with
      | msg m' => rw [hp] at hm; cases hm; exact (hk m hp).2 _ _ _ rfl hc
      | _ => rw [hp] at hm; cases hm
    | _ => cases hm
  have quiet : ∀ {evs : List Ev}, .detach ∉ evs → sents evs = [] → rebindCall cfg.irq.cnt a (op.subject st) evs = a := by
    intro evs h1 h2
    unfold rebindCall
    rw [if_neg h1, h2]
    cases op.subject st <;> rfl
  have hw : Irq.WF cfg.irq st.irqs := by
    obtain ⟨_, iops, h⟩ := hr
    rw [h]
    exact Irq.wf_run hi iops (Irq.wf_realize cfg.irq)
  have hT := call_turn hi ht hr (fun m hm => (hk m hm).1) op ho hno
  generalize call cfg st op = o at hT hno
  cases hT with
  | idle h0 h1 h2 => rw [quiet h2 h1, h0.irqs]; exact hs
  | bad h0 h1 h2 =>
    unfold rebindCall
    rw [if_neg h2, h1, h0.irqs]
    exact hs
  | refused m e h0 h1 h2 he h3 h4 =>
    rw [h0.irqs]
    cases hn : m.hdr.noReply with
    | true => rw [quiet h2 (h3 hn)]; exact hs
    | false =>
      obtain ⟨w, hw, hi⟩ := h4 hn
      unfold rebindCall
      rw [if_neg h2, h1, hw]
      have hf : ¬ (Wire.Hdr.ofBytes w.bytes).flags.testBit 5 = false := by rw [hi.error]; have := he.1; simp; omega
      dsimp only
      rw [if_neg (fun h => hf h.2)]
      exact hs
  | executed env q m l hf h1 h2 h3 h4 h5 h6 h7 h8 =>
    unfold rebindCall
    rw [if_neg h5, h1, h4.irqs]
    cases hn : m.hdr.noReply with
    | true =>
      rw [h7 hn]
      have hc : m.hdr.cmd ≠ 8 := fun h => by rw [(hsub m h1 h).1] at hn; cases hn
      rw [exec_irqs hc]
      exact hs
    | false =>
      obtain ⟨w, hw', hi', _⟩ := h8 hn
      rw [hw', ← hs]
      funext s
      exact exec_rebinds (st := { st with quiesced := q }) hi hw h3 (fun hc => (hsub m h1 hc).2) hi' s
  | reset env q h1 h2 h3 =>
    obtain ⟨ev3, he⟩ := resetQuiesced_exact hi env (st := { st with quiesced := q }) hr
    rw [he] at h3
    have h4 := h3.irqs
    unfold rebindCall
    rw [if_pos h1, h4]
    funext s
    exact realize_free cfg.irq s
  | config f h1 h2 h3 =>
    rw [h2, quiet (by rw [h3]; simp) (by rw [h3]; rfl)]; exact hs
  | mark sgl c c' h1 h2 h3 h4 h5 =>
    rw [h4, quiet (by rw [h5]; simp) (by rw [h5]; rfl)]; exact hs

theorem run_rebinds {cfg : Cfg} (hi : cfg.irq.Ok) (ht : TableOk cfg.tbl) {dma : Option (Nat × Nat)} (ops : List Op) {st : St}
    (hr : Reached cfg dma st.dma st.irqs) (hk : KeptGood HeardIrq st) {a : Slot → Option Fd} (hs : st.irqs.at_ = a)
    (ho : ∀ op ∈ ops, op.Fair ∧ op.OSOk ∧ op.Good HeardIrq) (hno : Completes cfg st ops) :
    (run cfg st ops).1.irqs.at_ = wired cfg a st ops := by
  induction ops generalizing st a with
  | nil => exact hs
  | cons op ops ih =>
    obtain ⟨o1, o2, o4⟩ := ho op (List.mem_cons_self ..)
    have h1 := call_rebinds hi ht hr hk hs op o1 o4 hno.1
    have hrun : (run cfg st (op :: ops)).1 = (run cfg (call cfg st op).st ops).1 := by
      conv_lhs => unfold run
      dsimp only
      rw [hno.1]
      rfl
    rw [hrun]
    exact ih ((stable_reached cfg dma).kept.call hr op o2) ((closed_true cfg HeardIrq).call st hk op o4).2 h1
      (fun op' h => ho op' (List.mem_cons_of_mem _ h)) hno.2

/-- C78: the client's account of the eventfds is right after every history, deferred requests, failed requests, device resets
and lost connections included; so `vfu_irq_trigger` signals exactly the eventfd of the account, or fails if there is none. -/
theorem C78_account {cfg : Cfg} (hi : cfg.irq.Ok) (ht : TableOk cfg.tbl) (mig : Bool) (dma : Option (Nat × Nat)) (pci : Pci.Pci)
    (ops : List Op) (ho : ∀ op ∈ ops, op.Fair ∧ op.OSOk ∧ op.Good HeardIrq)
    (hno : Completes cfg (init cfg mig dma pci) ops) :
    let st := (run cfg (init cfg mig dma pci) ops).1
    let a := wired cfg (fun _ => none) (init cfg mig dma pci) ops
    (∀ s, st.irqs.at_ s = a s) ∧
    ∀ i, let o := call cfg st (.trigger none i)
      (∀ fd, a (.vec i) = some fd → o.res = .ok () ∧ o.evs = [.signal fd]) ∧
      (a (.vec i) = none → (∃ t < 5, i < cfg.irq.cnt t) → o.res = .err ENOENT ∧ o.evs = []) ∧
      ((∀ t < 5, cfg.irq.cnt t ≤ i) → o.res = .err EINVAL ∧ o.evs = []) := by
  intro st a
  have hinit : Reached cfg dma (init cfg mig dma pci).dma (init cfg mig dma pci).irqs :=
    ⟨⟨[], (fun _ h => by cases h), rfl⟩, [], rfl⟩
  have h1 := run_rebinds (dma := dma) hi ht ops (st := init cfg mig dma pci) hinit
    (fun _ h => by cases h) (a := fun _ => none) (funext (realize_free cfg.irq)) ho hno
  have h2 : ∀ s, st.irqs.at_ s = a s := fun s => congrFun h1 s
  have hw : Irq.WF cfg.irq st.irqs := by
    obtain ⟨_, iops, h⟩ := run_reached cfg mig dma pci ops (fun op h => (ho op h).2.1)
    show Irq.WF cfg.irq (run cfg (init cfg mig dma pci) ops).1.irqs
    rw [h]
    exact Irq.wf_run hi iops (Irq.wf_realize cfg.irq)
  refine ⟨h2, fun i => ?_⟩
  have h3 := h2 (.vec i)
  clear_value st a
  obtain ⟨g1, g2, g3, _⟩ := Irq.C29_trigger hw none i
  dsimp only [call]
  refine ⟨fun fd h => ?_, fun h ht => ?_, fun h => ?_⟩
  · rw [g3 fd (h3.trans h)]; exact ⟨rfl, rfl⟩
  · rw [g2 ht (h3.trans h)]; exact ⟨rfl, rfl⟩
  · rw [g1 h]; exact ⟨rfl, rfl⟩

/-! ## C78: requests, end to end -/

theorem irq_closes (q : Bool) (l : List Fd) : ((l.map Irq.Ev.close).flatMap (ofIrq q)) = l.map Ev.close := by
  induction l with
  | nil => rfl
  | cons x l ih => rw [List.map_cons, List.flatMap_cons, ih]; rfl

theorem irq_signals (q : Bool) (l : List Fd) : ((l.map Irq.Ev.signal).flatMap (ofIrq q)) = l.map Ev.signal := by
  induction l with
  | nil => rfl
  | cons x l ih => rw [List.map_cons, List.flatMap_cons, ih]; rfl

theorem of_closes (l : List Fd) : calls (l.map Ev.close) = [] ∧ signals (l.map Ev.close) = [] ∧ shut (l.map Ev.close) = l := by
  induction l with
  | nil => exact ⟨rfl, rfl, rfl⟩
  | cons x l ih =>
    obtain ⟨h1, h2, h3⟩ := ih
    unfold calls signals shut at *
    simp only [List.map_cons, List.filterMap_cons, h1, h2, h3, and_self]

theorem of_signals (l : List Fd) : calls (l.map Ev.signal) = [] ∧ signals (l.map Ev.signal) = l ∧ shut (l.map Ev.signal) = [] := by
  induction l with
  | nil => exact ⟨rfl, rfl, rfl⟩
  | cons x l ih =>
    obtain ⟨h1, h2, h3⟩ := ih
    unfold calls signals shut at *
    simp only [List.map_cons, List.filterMap_cons, h1, h2, h3, and_self]

theorem some_id (l : List Fd) : (l.map some).filterMap id = l := by
  induction l with
  | nil => rfl
  | cons x l ih => simp

/-- What the client and the device see of a SET_IRQS: error number, callbacks, eventfds signalled, descriptors closed, and the
eventfds bound afterwards. -/
structure Wired (m : Msg) (e : Nat) (cbs : List Call) (sig closed : List Fd) (after : Slot → Option Fd) (st : St) (o : Out) :
    Prop where
  reply : Answered m e [] o
  calls : calls o.evs = cbs
  signals : signals o.evs = sig
  closed : shut o.evs = closed
  bound : o.st.irqs.at_ = after
  mig : o.st.mig = st.mig
  dma : o.st.dma = st.dma
  pci : o.st.pci = st.pci

section
variable {cfg : Cfg} (hi : cfg.irq.Ok) (ht : TableOk cfg.tbl) {env : Env} {st : St} {m : Msg} (hn : Next cfg env st m)
  (hw : Irq.WF cfg.irq st.irqs) (hc : m.hdr.cmd = 8)

include ht hn hc in
theorem irq_served {x : Irq.Out} (hx : Irq.handleSet cfg.irq env.eventfd st.irqs m.body (m.fds.map some) = x)
    (hno : x.res.isFault = false) {e : Nat} (he : replyErr x.res = e) (hlt : e < U32) :
    ∃ q, Wired m e (calls (x.evs.flatMap (ofIrq q))) (signals (x.evs.flatMap (ofIrq q)))
      (shut (x.evs.flatMap (ofIrq q)) ++ x.fds.filterMap id) x.irqs.at_ st (call cfg st (.run env (.req m.hdr m.body m.fds))) := by
  have hex : exec cfg env (ready cfg st m) m = setIrqs cfg env (ready cfg st m) m.body m.fds := exec_setIrqs hc
  have hset : setIrqs cfg env (ready cfg st m) m.body m.fds =
      { st := { ready cfg st m with irqs := x.irqs }, res := x.res, out := .bytes [], outFds := [], left := x.fds,
        evs := x.evs.flatMap (ofIrq (ready cfg st m).quiesced) } := by
    subst hx
    rfl
  rw [hset] at hex
  obtain ⟨l, sv⟩ := hn.served ht (by rw [hex]; exact hno)
  have hnq : needsQuiesce cfg st m = false := by
    unfold needsQuiesce
    rw [hc]
    cases cfg.hasQuiesce <;> rfl
  obtain ⟨h1, h2, _, h3, h4, _, h5, h6⟩ := sv
  rw [hex] at h1 h2 h3 h4 h5 h6
  rw [hnq] at h4
  dsimp only at h1 h2 h3 h4 h5 h6
  cases h1
  rw [he, Nat.mod_eq_of_lt hlt] at h3
  refine ⟨(ready cfg st m).quiesced, h3, h4, h5, h6, ?_, h2.mig, h2.dma, h2.pci⟩
  rw [h2.irqs]

include hi ht hn hc in
/-- C78: a request that is not well-formed (C26) is answered EINVAL; its descriptors are closed, nothing else happens. -/
theorem C78_refused (hbad : ¬ Irq.ReqOk cfg.irq m.body m.fds.length) :
    Wired m EINVAL [] [] m.fds st.irqs.at_ st (call cfg st (.run env (.req m.hdr m.body m.fds))) := by
  have h0 : m.body ≠ [] := careful_body hn.real (by rw [hc]; decide)
  obtain ⟨q, h⟩ := irq_served ht hn hc (Irq.C26_refused hi.small env.eventfd st.irqs m.fds h0 hbad) rfl (e := EINVAL) rfl (by decide)
  rw [some_id] at h
  exact h

include hi ht hn hw hc in
/-- C78: eventfds are bound to the vectors named, as the account says; those bound before are closed, nothing else happens. -/
theorem C78_bind (hok : Irq.ReqOk cfg.irq m.body m.fds.length) (ha : leAt m.body 4 4 &&& 0x38 = 32) (hf : m.fds ≠ []) :
    Wired m 0 [] [] ((places (leAt m.body 8 4) (leAt m.body 12 4) (leAt m.body 16 4)).filterMap st.irqs.at_)
      (assign st.irqs.at_ (leAt m.body 8 4) (leAt m.body 12 4) m.fds) st
      (call cfg st (.run env (.req m.hdr m.body m.fds))) := by
  have hr := set_rebinds hi hw env.eventfd hok (fun _ h => absurd h hf)
  obtain ⟨_, h1, _, _, _, h2, h3⟩ := Irq.C27_bind hi hw env.eventfd rfl hok ha hf
  obtain ⟨q, h⟩ := irq_served (e := 0) ht hn hc rfl (by rw [h1]; rfl) (by rw [h1]; rfl) (by decide)
  rw [h3, irq_closes] at h
  obtain ⟨c1, c2, c3⟩ := of_closes (((places (Irq.Req.ofBytes m.body).index (Irq.Req.ofBytes m.body).start
    (Irq.Req.ofBytes m.body).count).filterMap st.irqs.at_))
  rw [c1, c2, c3] at h
  have hnil : (Irq.handleSet cfg.irq env.eventfd st.irqs m.body (m.fds.map some)).fds.filterMap id = [] := by
    rw [List.filterMap_eq_nil_iff]
    exact h2
  rw [hnil, List.append_nil] at h
  have hb : (Irq.handleSet cfg.irq env.eventfd st.irqs m.body (m.fds.map some)).irqs.at_ =
      assign st.irqs.at_ (leAt m.body 8 4) (leAt m.body 12 4) m.fds := by
    funext s
    rw [hr s]
    unfold rebound
    rw [if_neg (by omega), if_pos hf]
  rw [hb] at h
  exact h

include hi ht hn hw hc in
/-- C78: a request without eventfds unbinds the vectors from 0 on that it names, or all vectors of the type if it has neither
data nor count; they are closed, nothing else happens. -/
theorem C78_unbind (hok : Irq.ReqOk cfg.irq m.body m.fds.length) (ha : leAt m.body 4 4 &&& 0x38 = 32) (hf : m.fds = [])
    {n : Nat} (hk : (leAt m.body 4 4 &&& 7 = 4 ∧ leAt m.body 12 4 = 0 ∧ n = leAt m.body 16 4) ∨
      (leAt m.body 16 4 = 0 ∧ n = cfg.irq.cnt (leAt m.body 8 4))) :
    Wired m 0 [] [] ((places (leAt m.body 8 4) 0 n).filterMap st.irqs.at_) (unassign st.irqs.at_ (leAt m.body 8 4) 0 n) st
      (call cfg st (.run env (.req m.hdr m.body m.fds))) := by
  have key : ∀ x : Irq.Out, Irq.handleSet cfg.irq env.eventfd st.irqs m.body (m.fds.map some) = x → x.res = .ok () →
      x.evs = ((places (leAt m.body 8 4) 0 n).filterMap st.irqs.at_).map Irq.Ev.close → x.fds = [] →
      x.irqs.at_ = unassign st.irqs.at_ (leAt m.body 8 4) 0 n →
      Wired m 0 [] [] ((places (leAt m.body 8 4) 0 n).filterMap st.irqs.at_) (unassign st.irqs.at_ (leAt m.body 8 4) 0 n) st
        (call cfg st (.run env (.req m.hdr m.body m.fds))) := by
    intro x hx h1 h2 h3 h4
    obtain ⟨q, h⟩ := irq_served (e := 0) ht hn hc hx (by rw [h1]; rfl) (by rw [h1]; rfl) (by decide)
    rw [h2, irq_closes, h3, h4] at h
    obtain ⟨c1, c2, c3⟩ := of_closes ((places (leAt m.body 8 4) 0 n).filterMap st.irqs.at_)
    rw [c1, c2, c3, List.filterMap_nil, List.append_nil] at h
    exact h
  have hcase := Irq.set_case hi hw.roomy env.eventfd hok
  generalize hx : Irq.handleSet cfg.irq env.eventfd st.irqs m.body (m.fds.map some) = o at hcase
  have hok' : Irq.ReqOk cfg.irq m.body 0 := by rw [hf] at hok; exact hok
  have f1 : (Irq.Req.ofBytes m.body).action = leAt m.body 4 4 &&& 0x38 := rfl
  have f2 : (Irq.Req.ofBytes m.body).data = leAt m.body 4 4 &&& 7 := rfl
  have f3 : (Irq.Req.ofBytes m.body).index = leAt m.body 8 4 := rfl
  have f4 : (Irq.Req.ofBytes m.body).start = leAt m.body 12 4 := rfl
  have f5 : (Irq.Req.ofBytes m.body).count = leAt m.body 16 4 := rfl
  cases hcase with
  | state ev ha' _ => rw [f1] at ha'; omega
  | disable st' k ha' hd hcl =>
    have hz : leAt m.body 12 4 = 0 ∧ k = n := by
      rcases hd with ⟨h1, h2, h3, h4⟩ | ⟨h1, h2, h3, h4⟩ <;> rcases hk with ⟨g1, g2, g3⟩ | ⟨g1, g2⟩
      · rw [f2] at h1; omega
      · exact ⟨h3, h4.trans g2.symm⟩
      · exact ⟨g2, h4.trans g3.symm⟩
      · exact absurd g1 h3
    rw [f3, f4, hz.1, hz.2, Irq.disSlots_eq, Nat.sub_zero] at hcl hx
    refine key _ hx rfl rfl (by rw [hf]; rfl) ?_
    funext s
    unfold unassign
    by_cases hs : s ∈ places (leAt m.body 8 4) 0 n
    · rw [if_pos hs]
      show (st'.get s).join = none
      rw [hcl.gone s hs]; rfl
    · rw [if_neg hs]
      show (st'.get s).join = (st.irqs.get s).join
      rw [hcl.same s hs]
  | signal sel ha' hf' hsel hn' h0 =>
    rw [f5] at h0
    rcases hk with ⟨g1, _⟩ | ⟨g1, _⟩
    · rcases hsel with ⟨h, _⟩ | ⟨h, _⟩ <;> rw [f2] at h <;> omega
    · exact absurd g1 h0
  | bind st' ha' hd hf' => exact absurd hf hf'

include hi ht hn hw hc in
/-- C78: a loopback request signals the selected vectors that are bound, in order, up to the first write that fails, whose
error is the answer. -/
theorem C78_loopback (hok : Irq.ReqOk cfg.irq m.body 0) (hf : m.fds = []) (ha : leAt m.body 4 4 &&& 0x38 = 32)
    (h0 : leAt m.body 16 4 ≠ 0) {sel : List Bool}
    (hsel : (leAt m.body 4 4 &&& 7 = 1 ∧ sel = List.replicate (leAt m.body 16 4) true) ∨
      (leAt m.body 4 4 &&& 7 = 2 ∧ sel = (m.body.drop 20).map (fun b => b == 1#8))) :
    let o := call cfg st (.run env (.req m.hdr m.body m.fds))
    let ws := Irq.wanted st.irqs (leAt m.body 8 4) (leAt m.body 12 4) sel
    ((∀ k < ws.length, env.eventfd k = none) → Wired m 0 [] ws [] st.irqs.at_ st o) ∧
    ∀ k e, k < ws.length → (∀ k' < k, env.eventfd k' = none) → env.eventfd k = some e → e < U32 →
      Wired m e [] (ws.take k) [] st.irqs.at_ st o := by
  intro o ws
  obtain ⟨h1, h2, h3⟩ := Irq.C30_loopback hi hw env.eventfd rfl hok ha h0 hsel
  have hfd : (Irq.handleSet cfg.irq env.eventfd st.irqs m.body []).fds = [] := by
    have hcase := Irq.set_case hi hw.roomy env.eventfd (fds := []) hok
    rw [List.map_nil] at hcase
    generalize Irq.handleSet cfg.irq env.eventfd st.irqs m.body [] = x at hcase
    cases hcase with
    | bind _ _ _ hf' => exact absurd rfl hf'
    | _ => rfl
  have hset : Irq.handleSet cfg.irq env.eventfd st.irqs m.body (m.fds.map some) =
      Irq.handleSet cfg.irq env.eventfd st.irqs m.body [] := by rw [hf]; rfl
  have key : ∀ (e : Nat) (l : List Fd), e < U32 →
      (Irq.handleSet cfg.irq env.eventfd st.irqs m.body []).res.isFault = false →
      replyErr (Irq.handleSet cfg.irq env.eventfd st.irqs m.body []).res = e →
      (Irq.handleSet cfg.irq env.eventfd st.irqs m.body []).evs = l.map Irq.Ev.signal →
      Wired m e [] l [] st.irqs.at_ st o := by
    intro e l hlt hno he hev
    obtain ⟨q, h⟩ := irq_served ht hn hc hset hno he hlt
    obtain ⟨c1, c2, c3⟩ := of_signals l
    rw [hev, irq_signals, c1, c2, c3, hfd, h1] at h
    exact h
  refine ⟨fun h => ?_, fun k e hk h h' hlt => ?_⟩
  · obtain ⟨g1, g2⟩ := h2 h
    exact key 0 ws (by decide) (by rw [g1]; rfl) (by rw [g1]; rfl) g2
  · obtain ⟨g1, g2⟩ := h3 k e hk h h'
    exact key e _ hlt (by rw [g1]; rfl) (by rw [g1]; rfl) g2

include hi ht hn hc in
/-- C78: masking and unmasking tell the device, if it has a callback for the type; descriptors that came along are closed. -/
theorem C78_mask (hok : Irq.ReqOk cfg.irq m.body m.fds.length)
    (ha : leAt m.body 4 4 &&& 0x38 = 8 ∨ leAt m.body 4 4 &&& 0x38 = 16) :
    Wired m 0 (if cfg.irq.hasCb (leAt m.body 8 4) = true then
        [.irqState (leAt m.body 8 4) (leAt m.body 12 4) (leAt m.body 16 4) (decide (leAt m.body 4 4 &&& 0x38 = 8))] else [])
      [] m.fds st.irqs.at_ st (call cfg st (.run env (.req m.hdr m.body m.fds))) := by
  have hx := Irq.C63_mask (st := st.irqs) hi env.eventfd rfl hok ha
  obtain ⟨q, h⟩ := irq_served ht hn hc hx rfl (e := 0) rfl (by decide)
  have f1 : (Irq.Req.ofBytes m.body).action = leAt m.body 4 4 &&& 0x38 := rfl
  have f3 : (Irq.Req.ofBytes m.body).index = leAt m.body 8 4 := rfl
  rw [f3] at h
  dsimp only at h
  rw [some_id] at h
  by_cases hcb : cfg.irq.hasCb (leAt m.body 8 4) = true
  · rw [if_pos hcb] at h ⊢
    have hd : ((Irq.Req.ofBytes m.body).action == Irq.ACT_MASK) = decide (leAt m.body 4 4 &&& 0x38 = 8) := by
      rw [f1]; rfl
    rw [hd] at h
    exact h
  · rw [if_neg hcb] at h ⊢
    exact h

end

section
open Demo

theorem heardIrq_req (id : Nat) (body : List Byte) (fds : List Fd) (h1 : id < 65536) (h5 : body.length ≤ 1048576 + 16)
    (h6 : body ≠ []) (h7 : fds.length ≤ 1024) (h8 : leAt body 4 4 &&& 7 = 4 → fds = [] → leAt body 12 4 = 0) :
    HeardIrq (req id 8 0 body fds) :=
  ⟨req_real _ _ _ _ _ h1 (by decide) (by decide) (by decide) h5 (.inl h6) h7,
    fun h b f he _ => by cases he; exact ⟨by simp [hdr, Wire.Hdr.noReply], h8⟩⟩

/-- The client binds the MSI-X vectors 0 and 1, rebinds vector 1, is refused a vector that does not exist, unbinds
vector 0, and hangs up. -/
def wiring : List Op :=
  [.attach (.ok { maxFds := 8, maxXfer := 1048576, pgsize := 4096 }),
   .run env (req 1 8 0 (Irq.msg 0x24 2 0 2 []) [21, 22]), .run env (req 2 8 0 (Irq.msg 0x24 2 1 1 []) [23]),
   .run env (req 3 8 0 (Irq.msg 0x24 2 2 1 []) [24]), .run env (req 4 8 0 (Irq.msg 0x24 2 0 1 []) []),
   .trigger none 1, .run env (.lost ENOMSG [])]

theorem wiring_ok : ∀ op ∈ wiring, op.Fair ∧ op.OSOk ∧ op.Good HeardIrq := by
  have run : ∀ {i : Wire.In}, HeardIrq i → (Op.run env i).Fair ∧ (Op.run env i).OSOk ∧ (Op.run env i).Good HeardIrq :=
    fun hh => ⟨⟨env_fair, hh.1⟩, (fun e' he => by cases he; exact env_ok rfl), hh⟩
  intro op hop
  simp only [wiring, List.mem_cons, List.not_mem_nil, or_false] at hop
  rcases hop with rfl | rfl | rfl | rfl | rfl | rfl | rfl
  · exact ⟨trivial, (fun _ h => by cases h), trivial⟩
  · exact run (heardIrq_req 1 _ _ (by decide) (by decide) (by decide) (by decide) (by decide))
  · exact run (heardIrq_req 2 _ _ (by decide) (by decide) (by decide) (by decide) (by decide))
  · exact run (heardIrq_req 3 _ _ (by decide) (by decide) (by decide) (by decide) (by decide))
  · exact run (heardIrq_req 4 _ _ (by decide) (by decide) (by decide) (by decide) (by decide))
  · exact ⟨trivial, (fun _ h => by cases h), trivial⟩
  · exact run ⟨⟨{ cells := [], lim := [], closed := true }, rfl⟩, fun _ _ _ h => by cases h⟩

/-- The account step by step, for the two vectors. -/
example : (List.range 8).map (fun n => [0, 1].map fun i =>
      wired cfg (fun _ => none) (init cfg true none pci) (wiring.take n) (.vec i)) =
    [[none, none], [none, none], [some 21, some 22], [some 21, some 23], [some 21, some 23], [none, some 23],
      [none, some 23], [none, none]] := by decide +kernel

example := C78_account irq_ok table_ok true none pci wiring wiring_ok
  ⟨by decide +kernel, by decide +kernel, by decide +kernel, by decide +kernel, by decide +kernel, by decide +kernel,
    by decide +kernel, trivial⟩

/-- The library after the first `n` calls. -/
def wiredSt (n : Nat) : St := (run cfg (init cfg true none pci) (wiring.take n)).1

theorem wiredSt_wf (n : Nat) : Irq.WF cfg.irq (wiredSt n).irqs := by
  obtain ⟨_, iops, h⟩ := run_reached cfg true none pci (wiring.take n)
    (fun op h => (wiring_ok op (List.mem_of_mem_take h)).2.1)
  unfold wiredSt
  rw [h]
  exact Irq.wf_run irq_ok iops (Irq.wf_realize cfg.irq)

theorem wiredSt_awaits : Awaits (wiredSt 3) ∧ (wiredSt 3).mig = some 2 :=
  ⟨⟨by decide +kernel, by decide +kernel⟩, by decide +kernel⟩

theorem next_wired (id : Nat) (body : List Byte) (fds : List Fd) (h1 : id < 65536) (h5 : body.length ≤ 1048576 + 16)
    (h6 : body ≠ []) (h7 : fds.length ≤ 1024) : Next cfg env (wiredSt 3) ⟨hdr id 8 0 body.length, body, fds⟩ :=
  next_req env_fair rfl rfl wiredSt_awaits.1 wiredSt_awaits.2 id 8 body fds h1 (by decide) h5 h6 h7

theorem reqOk_demo {b : List Byte} {n : Nat} (h : Irq.validate cfg.irq b n = .ok ()) : Irq.ReqOk cfg.irq b n :=
  (Irq.validate_ok irq_ok.small b n).1 h

example := C78_refused irq_ok table_ok (next_wired 3 (Irq.msg 0x24 2 2 1 []) [24] (by decide) (by decide) (by decide) (by decide))
  rfl (fun h => absurd h.range (by decide))
example := C78_bind irq_ok table_ok (next_wired 3 (Irq.msg 0x24 2 0 2 []) [25, 26] (by decide) (by decide) (by decide) (by decide))
  (wiredSt_wf 3) rfl (reqOk_demo (by decide +kernel)) (by decide) (by decide)
example := C78_unbind irq_ok table_ok (next_wired 3 (Irq.msg 0x24 2 0 2 []) [] (by decide) (by decide) (by decide) (by decide))
  (wiredSt_wf 3) rfl (reqOk_demo (by decide +kernel)) (by decide) rfl (.inl ⟨by decide, by decide, rfl⟩)
example := C78_loopback irq_ok table_ok (next_wired 3 (Irq.msg 0x21 2 0 2 []) [] (by decide) (by decide) (by decide) (by decide))
  (wiredSt_wf 3) rfl (reqOk_demo (by decide +kernel)) rfl (by decide) (by decide) (.inl ⟨by decide, rfl⟩)
example := C78_mask irq_ok table_ok (next_wired 3 (Irq.msg 0x09 2 0 1 []) [] (by decide) (by decide) (by decide) (by decide))
  rfl (reqOk_demo (by decide +kernel)) (.inl (by decide))

/-- Why ranges that start above 0 are left out: the request to unbind vector 1 is acknowledged, and the vector stays bound. -/
theorem C78_violated :
    let ops := wiring.take 2 ++ [.run env (req 2 8 0 (Irq.msg 0x24 2 1 1 []) [])]
    Completes cfg (init cfg true none pci) ops ∧
      wired cfg (fun _ => none) (init cfg true none pci) ops (.vec 1) = none ∧
      (call cfg (run cfg (init cfg true none pci) ops).1 (.trigger none 1)).evs = [.signal 22] :=
  ⟨⟨by decide +kernel, by decide +kernel, by decide +kernel, trivial⟩, by decide +kernel, by decide +kernel⟩

end

end Verif.Server
