import Verif.Irq.Lemmas
import Mathlib.Data.List.Nodup

namespace Verif.Irq
open Verif

/-- What holds of the bindings from `realize` on. -/
structure WF (cfg : Cfg) (st : Irqs) : Prop where
  len : st.efds.length = maxIvs cfg
  err : cfg.cnt ERR = 0 → st.err = none
  req : cfg.cnt REQ = 0 → st.req = none

theorem wf_realize (cfg : Cfg) : WF cfg (realize cfg) := ⟨by simp [realize], fun _ => rfl, fun _ => rfl⟩

/-- The array has room for the vectors of every type. -/
def Roomy (cfg : Cfg) (st : Irqs) : Prop := ∀ i, i < 5 → cfg.cnt i ≤ st.efds.length

theorem WF.roomy {cfg : Cfg} {st : Irqs} (hw : WF cfg st) : Roomy cfg st := by
  intro i hi
  rw [hw.len]
  exact cnt_le_max cfg hi

section
variable {cfg : Cfg} (hc : cfg.Ok) {st : Irqs} (hw : Roomy cfg st)
include hc hw

omit hc in
theorem slot_isSome {index i : Nat} (hi : index < 5) (h : i < cfg.cnt index) : (st.get (efdSlot index i)).isSome := by
  have hm := hw index hi
  unfold efdSlot
  split
  · rfl
  · split
    · rfl
    · simp only [Irqs.get]
      rw [List.getElem?_eq_getElem (by omega)]
      rfl

omit hw in
theorem range_facts {index i n : Nat} (h : i + n ≤ cfg.cnt index) : (disSlots index n i).Nodup ∧
    (∀ j, i ≤ j → j < i + n → disableSlot index j = some (efdSlot index j)) := by
  have he := hc.err
  have hr := hc.req
  constructor
  · by_cases h3 : index = ERR ∨ index = REQ
    · have : n ≤ 1 := by rcases h3 with rfl | rfl <;> omega
      have : n = 0 ∨ n = 1 := by omega
      rcases this with rfl | rfl <;> simp [disSlots]
    · rw [not_or] at h3
      unfold disSlots
      refine List.Nodup.map ?_ (List.nodup_range' (s := i) (n := n))
      intro a b hab
      simp only [efdSlot, h3.1, h3.2, if_false] at hab
      injection hab
  · intro j h1 h2
    unfold disableSlot efdSlot
    by_cases h3 : index = ERR
    · subst h3
      rw [if_pos rfl, if_pos rfl, if_pos (by omega)]
    · by_cases h4 : index = REQ
      · subst h4
        rw [if_neg h3, if_neg h3, if_pos rfl, if_pos rfl, if_pos (by omega)]
      · rw [if_neg h3, if_neg h3, if_neg h4, if_neg h4]

omit hc in
theorem range_isSome {index i n : Nat} (hi : index < 5) (h : i + n ≤ cfg.cnt index) :
    ∀ s ∈ disSlots index n i, (st.get s).isSome := by
  intro s hm
  simp only [disSlots, List.mem_map, List.mem_range'_1] at hm
  obtain ⟨j, hj, rfl⟩ := hm
  exact slot_isSome hw hi (by omega)

/-- A disable of an accepted request. -/
theorem disable_spec {index start count : Nat} (hi : index < 5) (h : start + count ≤ cfg.cnt index) :
    let m := if count = 0 then cfg.cnt index else count
    ∃ st', disable cfg st index start count =
        .ok (st', (st.bound (disSlots index (m - start) start)).map Ev.close) ∧
      Cleared st st' (disSlots index (m - start) start) := by
  intro m
  have hm : start + (m - start) ≤ cfg.cnt index ∨ m - start = 0 := by
    have : m = if count = 0 then cfg.cnt index else count := rfl
    split at this <;> omega
  have hm' : start + (m - start) ≤ cfg.cnt index := by omega
  have hs := hc.small index
  have hadd : add32 start count = start + count := by
    unfold add32
    exact Nat.mod_eq_of_lt (by omega)
  obtain ⟨h1, h2⟩ := range_facts hc hm'
  obtain ⟨st', he, hcl⟩ := disableLoop_spec index (m - start) start st h2 h1 (range_isSome hw hi hm')
  refine ⟨st', ?_, hcl⟩
  unfold disable
  rw [if_neg (by simp only [NUM_IRQS]; omega), if_neg (by rw [hadd]; omega)]
  exact he

end

theorem wf_of_cleared {cfg : Cfg} {st st' : Irqs} {ss : List Slot} (hw : WF cfg st) (h : Cleared st st' ss) : WF cfg st' := by
  have key : ∀ s, st'.at_ s = none ∨ st'.get s = st.get s := by
    intro s
    by_cases hm : s ∈ ss
    · left; simp [Irqs.at_, h.gone s hm]
    · right; exact h.same s hm
  refine ⟨h.len.trans hw.len, ?_, ?_⟩
  · intro h0
    rcases key .err with h1 | h1
    · simpa [Irqs.at_, Irqs.get] using h1
    · have := hw.err h0
      simp only [Irqs.get, this] at h1
      injection h1
  · intro h0
    rcases key .req with h1 | h1
    · simpa [Irqs.at_, Irqs.get] using h1
    · have := hw.req h0
      simp only [Irqs.get, this] at h1
      injection h1

/-- All places. -/
def allSlots (st : Irqs) : List Slot := .err :: .req :: (List.range st.efds.length).map .vec

theorem reset_spec {cfg : Cfg} (hc : cfg.Ok) {st : Irqs} (hw : WF cfg st) :
    ∃ st' ev, reset cfg st = .ok (st', ev) ∧ WF cfg st' ∧ (∀ s, st'.at_ s = none) := by
  obtain ⟨st1, h1, c1⟩ := disable_spec hc hw.roomy (index := REQ) (start := 0) (count := 0) (by decide) (by omega)
  simp only [if_true, Nat.sub_zero] at h1 c1
  have w1 := wf_of_cleared hw c1
  obtain ⟨st2, h2, c2⟩ := disable_spec hc w1.roomy (index := ERR) (start := 0) (count := 0) (by decide) (by omega)
  simp only [if_true, Nat.sub_zero] at h2 c2
  have w2 := wf_of_cleared w1 c2
  obtain ⟨st3, h3, c3⟩ := resetLoop_spec st2.efds.length 0 st2 (by omega)
  have w3 := wf_of_cleared w2 c3
  have hrs : ∃ ev, reset cfg st = .ok (st3, ev) := by
    simp only [reset, h1, h2, h3]
    exact ⟨_, rfl⟩
  obtain ⟨ev, hrs⟩ := hrs
  refine ⟨st3, ev, hrs, w3, ?_⟩
  · have hr : st1.req = none := by
      by_cases h0 : cfg.cnt REQ = 0
      · exact w1.req h0
      · have := c1.gone .req (by
          simp only [disSlots, List.mem_map, List.mem_range'_1]
          exact ⟨0, by omega, rfl⟩)
        simpa [Irqs.get] using this
    have he : st2.err = none := by
      by_cases h0 : cfg.cnt ERR = 0
      · exact w2.err h0
      · have := c2.gone .err (by
          simp only [disSlots, List.mem_map, List.mem_range'_1]
          exact ⟨0, by omega, rfl⟩)
        simpa [Irqs.get] using this
    have hr2 : st2.req = none := by
      have := c2.same .req (by
        simp only [disSlots, List.mem_map, List.mem_range'_1, not_exists, not_and]
        intro x _
        simp [efdSlot])
      simp only [Irqs.get, hr] at this
      injection this
    intro s
    cases s with
    | err =>
      have := c3.same .err (by simp)
      simp only [Irqs.get, he] at this
      simpa [Irqs.at_, Irqs.get] using this
    | req =>
      have := c3.same .req (by simp)
      simp only [Irqs.get, hr2] at this
      simpa [Irqs.at_, Irqs.get] using this
    | vec i =>
      by_cases hi : i < st2.efds.length
      · have := c3.gone (.vec i) (by
          rw [List.mem_map]
          exact ⟨i, by rw [List.mem_range'_1]; omega, rfl⟩)
        simp [Irqs.at_, this]
      · have : st3.efds.length ≤ i := by rw [c3.len]; omega
        simp [Irqs.at_, Irqs.get, List.getElem?_eq_none this]

/-- What an accepted request does. -/
inductive SetCase (cfg : Cfg) (wr : Nat → Option Nat) (st : Irqs) (body : List Byte) (fds : List Fd) : Out → Prop where
  | state (ev : List Ev) (ha : (Req.ofBytes body).action = 8 ∨ (Req.ofBytes body).action = 16)
      (hev : ev = [] ∨ ∃ m, ev = [.state (Req.ofBytes body).index (Req.ofBytes body).start (Req.ofBytes body).count m]) :
      SetCase cfg wr st body fds { irqs := st, fds := fds.map some, res := .ok (), evs := ev }
  | disable (st' : Irqs) (m : Nat) (ha : (Req.ofBytes body).action = 32)
      (hd : ((Req.ofBytes body).data = 1 ∧ (Req.ofBytes body).count = 0 ∧ (Req.ofBytes body).start = 0 ∧
            m = cfg.cnt (Req.ofBytes body).index) ∨
          ((Req.ofBytes body).data = 4 ∧ fds = [] ∧ (Req.ofBytes body).count ≠ 0 ∧ m = (Req.ofBytes body).count))
      (hcl : Cleared st st' (disSlots (Req.ofBytes body).index (m - (Req.ofBytes body).start) (Req.ofBytes body).start)) :
      SetCase cfg wr st body fds (Out.mk st' (fds.map some) (.ok ())
        ((st.bound (disSlots (Req.ofBytes body).index (m - (Req.ofBytes body).start)
          (Req.ofBytes body).start)).map Ev.close))
  | signal (sel : List Bool) (ha : (Req.ofBytes body).action = 32) (hf : fds = [])
      (hsel : ((Req.ofBytes body).data = 1 ∧ sel = List.replicate (Req.ofBytes body).count true) ∨
        ((Req.ofBytes body).data = 2 ∧ sel = (body.drop 20).map (fun b => b == 1#8)))
      (hn : sel.length = (Req.ofBytes body).count) (h0 : (Req.ofBytes body).count ≠ 0) :
      SetCase cfg wr st body fds (Out.mk st []
        (signalLoop (Req.ofBytes body).index wr sel (Req.ofBytes body).start 0 st).1
        (signalLoop (Req.ofBytes body).index wr sel (Req.ofBytes body).start 0 st).2)
  | bind (st' : Irqs) (ha : (Req.ofBytes body).action = 32) (hd : (Req.ofBytes body).data = 4) (hf : fds ≠ [])
      (hlen : fds.length = (Req.ofBytes body).count) (hl : st'.efds.length = st.efds.length)
      (hb : ∀ k (hk : k < fds.length),
        st'.get (efdSlot (Req.ofBytes body).index ((Req.ofBytes body).start + k)) = some (some fds[k]))
      (hs : ∀ s, s ∉ disSlots (Req.ofBytes body).index (Req.ofBytes body).count (Req.ofBytes body).start →
        st'.get s = st.get s) :
      SetCase cfg wr st body fds (Out.mk st' (List.replicate (Req.ofBytes body).count none) (.ok ())
        ((st.bound (disSlots (Req.ofBytes body).index (Req.ofBytes body).count
          (Req.ofBytes body).start)).map Ev.close))

theorem set_case {cfg : Cfg} (hc : cfg.Ok) {st : Irqs} (hw : Roomy cfg st) (wr : Nat → Option Nat) {body : List Byte}
    {fds : List Fd} (h : ReqOk cfg body fds.length) : SetCase cfg wr st body fds (handleSet cfg wr st body (fds.map some)) := by
  have hv := (validate_ok hc.small body fds.length).2 h
  have hsm := hc.small (Req.ofBytes body).index
  have hadd : add32 (Req.ofBytes body).start (Req.ofBytes body).count =
      (Req.ofBytes body).start + (Req.ofBytes body).count := by
    unfold add32
    exact Nat.mod_eq_of_lt (by have := h.range; omega)
  have hact := h.action
  have hdat := h.data
  simp only [List.mem_cons, List.not_mem_nil, or_false] at hact hdat
  unfold handleSet
  rw [List.length_map, hv]
  dsimp only
  by_cases ha : (Req.ofBytes body).action = ACT_MASK ∨ (Req.ofBytes body).action = ACT_UNMASK
  · rw [if_pos ha]
    have hidx : ¬ (Req.ofBytes body).index ≥ NUM_IRQS := by have := h.index; simp only [NUM_IRQS]; omega
    have hact' : ¬ ((Req.ofBytes body).action &&& ACT_MASK = 0 ∧ (Req.ofBytes body).action &&& ACT_UNMASK = 0) := by
      rcases ha with ha | ha <;> rw [ha] <;> decide
    by_cases hcb : cfg.hasCb (Req.ofBytes body).index = false
    · have hx : setState cfg (Req.ofBytes body) = .ok [] := by
        simp only [setState, if_neg hidx, if_pos hcb]
      rw [hx]
      exact .state _ ha (.inl rfl)
    · have hle : ¬ add32 (Req.ofBytes body).start (Req.ofBytes body).count > cfg.cnt (Req.ofBytes body).index := by
        rw [hadd]; have := h.range; omega
      have hx : setState cfg (Req.ofBytes body) = .ok [.state (Req.ofBytes body).index (Req.ofBytes body).start
          (Req.ofBytes body).count (decide ((Req.ofBytes body).action &&& ACT_MASK ≠ 0))] := by
        simp only [setState, if_neg hidx, if_neg hcb, if_neg hle, if_neg hact']
      rw [hx]
      exact .state _ ha (.inr ⟨_, rfl⟩)
  · rw [if_neg ha]
    have ha32 : (Req.ofBytes body).action = 32 := by
      simp only [ACT_MASK, ACT_UNMASK, not_or] at ha
      omega
    by_cases hdis : isDisable (Req.ofBytes body) fds.length = true
    · rw [if_pos hdis]
      obtain ⟨st', he, hcl⟩ := disable_spec hc hw h.index h.range
      rw [he]
      simp only [isDisable, Bool.or_eq_true, Bool.and_eq_true, beq_iff_eq, DATA_NONE, DATA_EVENTFD] at hdis
      refine .disable st' _ ha32 ?_ hcl
      rcases hdis with ⟨h1, h2⟩ | ⟨h1, h2⟩
      · left; exact ⟨h1, h2, (h.zero h2).1, by rw [if_pos h2]⟩
      · right
        have hne : (Req.ofBytes body).count ≠ 0 := by
          intro h0
          have := (h.zero h0).2.2
          omega
        exact ⟨h1, List.length_eq_zero_iff.1 h2, hne, by rw [if_neg hne]⟩
    · rw [if_neg hdis]
      simp only [isDisable, Bool.or_eq_true, Bool.and_eq_true, beq_iff_eq, DATA_NONE, DATA_EVENTFD, not_or,
        not_and] at hdis
      by_cases hd1 : (Req.ofBytes body).data = DATA_NONE
      · rw [if_pos hd1]
        have hf : fds = [] := by
          by_contra hne
          have := (h.fds (by rwa [ne_eq, List.length_eq_zero_iff])).1
          rw [hd1] at this
          cases this
        subst hf
        have h0 := hdis.1 hd1
        have hn : add32 (Req.ofBytes body).start (Req.ofBytes body).count - (Req.ofBytes body).start =
          (Req.ofBytes body).count := by omega
        simp only [dataNone, hn]
        exact .signal _ ha32 rfl (.inl ⟨hd1, rfl⟩) (by simp) h0
      · rw [if_neg hd1]
        by_cases hd4 : (Req.ofBytes body).data = DATA_EVENTFD
        · rw [if_pos hd4]
          have hne : fds ≠ [] := by
            rintro rfl
            exact hdis.2 hd4 rfl
          have hlen := (h.fds (by rwa [ne_eq, List.length_eq_zero_iff])).2
          have hn : add32 (Req.ofBytes body).start (Req.ofBytes body).count - (Req.ofBytes body).start =
            (Req.ofBytes body).count := by omega
          obtain ⟨h1, _⟩ := range_facts hc h.range
          obtain ⟨st', he, hl, hb, hs⟩ := bindLoop_spec (Req.ofBytes body).index (Req.ofBytes body).count
            (Req.ofBytes body).count (Req.ofBytes body).start 0 st (fds.map some) fds hlen (by omega) rfl h1
            (range_isSome hw h.index h.range)
          simp only [hn, he, List.take_zero, List.nil_append]
          exact .bind st' ha32 hd4 hne hlen hl hb hs
        · rw [if_neg hd4]
          have hd2 : (Req.ofBytes body).data = 2 := by simp only [DATA_NONE, DATA_EVENTFD] at hd1 hd4; omega
          rw [if_pos (show (Req.ofBytes body).data = DATA_BOOL from hd2)]
          have hf : fds = [] := by
            by_contra hne
            have := (h.fds (by rwa [ne_eq, List.length_eq_zero_iff])).1
            rw [hd2] at this
            cases this
          subst hf
          have h0 : (Req.ofBytes body).count ≠ 0 := by
            intro h0
            have := (h.zero h0).2.2
            omega
          have hn : add32 (Req.ofBytes body).start (Req.ofBytes body).count - (Req.ofBytes body).start =
            (Req.ofBytes body).count := by omega
          have hbl := h.bools hd2
          have htk : (body.drop 20).take (Req.ofBytes body).count = body.drop 20 := by
            apply List.take_of_length_le
            simp
            omega
          have hnl : ¬ body.length < 20 + (Req.ofBytes body).count := by omega
          simp only [dataBool, hn, if_neg hnl, htk]
          exact .signal _ ha32 rfl (.inr ⟨hd2, rfl⟩) (by simp; omega) h0

theorem wf_bind {cfg : Cfg} {st st' : Irqs} {q : Req} (hw : WF cfg st) (hl : st'.efds.length = st.efds.length)
    (h : ∀ s, s ∉ disSlots q.index q.count q.start → st'.get s = st.get s) (hs : q.start < cfg.cnt q.index) : WF cfg st' := by
  refine ⟨hl.trans hw.len, ?_, ?_⟩
  · intro h0
    have := h .err (by
      simp only [disSlots, List.mem_map, List.mem_range'_1, not_exists, not_and]
      intro x _ hx
      simp only [efdSlot] at hx
      split at hx
      · rename_i he; rw [he] at hs; omega
      · split at hx <;> cases hx)
    simp only [Irqs.get, hw.err h0] at this
    injection this
  · intro h0
    have := h .req (by
      simp only [disSlots, List.mem_map, List.mem_range'_1, not_exists, not_and]
      intro x _ hx
      simp only [efdSlot] at hx
      split at hx
      · cases hx
      · split at hx
        · rename_i he; rw [he] at hs; omega
        · cases hx)
    simp only [Irqs.get, hw.req h0] at this
    injection this

theorem wf_step {cfg : Cfg} (hc : cfg.Ok) {st : Irqs} (hw : WF cfg st) (op : Op) : WF cfg (step cfg st op).irqs := by
  cases op with
  | set wr body fds =>
    simp only [step]
    by_cases h0 : body = []
    · subst h0
      exact hw
    by_cases h : ReqOk cfg body fds.length
    · have := set_case hc hw.roomy wr h
      generalize handleSet cfg wr st body (fds.map some) = o at this
      cases this with
      | state => exact hw
      | disable st' m _ _ hcl => exact wf_of_cleared hw hcl
      | signal => exact hw
      | bind st' _ _ _ _ hl _ hs => exact wf_bind hw hl hs h.start
    · have := validate_bad hc.small h0 h
      simp only [handleSet, List.length_map, this]
      exact hw
  | reset =>
    obtain ⟨st', ev, h, h2, _⟩ := reset_spec hc hw
    simp only [step, h]
    exact h2
  | trigger wr sub => exact hw

theorem wf_run {cfg : Cfg} (hc : cfg.Ok) (ops : List Op) : ∀ {st : Irqs}, WF cfg st → WF cfg (run cfg st ops) := by
  induction ops with
  | nil => intro st h; exact h
  | cons op ops ih => intro st h; exact ih (wf_step hc h op)

end Verif.Irq
