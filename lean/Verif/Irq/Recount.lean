import Verif.Irq.Props

/-!
# The number of interrupts changes after `vfu_realize_ctx` (C105)

* `vfu_setup_device_nr_irqs` stores the number whenever it is called; requests are checked against it.
* The array of descriptors is as long as the largest number at `vfu_realize_ctx`.
-/

namespace Verif.Irq
open Verif

/-- What happens to a realized device, as far as interrupts go: a request, a reset, a trigger; or a new number of
interrupts of a type. -/
inductive Move where
  | op (op : Op)
  | recount (type n : Nat)

/-- `lib/libvfio-user.c:2144-2160` `vfu_setup_device_nr_irqs`. -/
def recount (cfg : Cfg) (type n : Nat) : Cfg :=
  if type ≥ NUM_IRQS then cfg else { cfg with cnt := fun i => if i = type then n else cfg.cnt i }

/-- One move: numbers, bindings, and what the request, the reset or the trigger came to. -/
def move (cfg : Cfg) (st : Irqs) : Move → (Cfg × Irqs) × Option Out
  | .op op => ((cfg, (step cfg st op).irqs), some (step cfg st op))
  | .recount t n => ((recount cfg t n, st), none)

/-- A sequence of moves; the outcomes of the requests, resets and triggers. -/
def moves (cfg : Cfg) (st : Irqs) : List Move → (Cfg × Irqs) × List Out
  | [] => ((cfg, st), [])
  | m :: ms =>
    let r := move cfg st m
    let rest := moves r.1.1 r.1.2 ms
    (rest.1, r.2.toList ++ rest.2)

/-- No more than the array can hold, and at most one vector of type ERR and REQ; requests have a body. -/
def Move.Within (room : Nat) : Move → Prop
  | .op (.set _ body _) => body ≠ []
  | .op _ => True
  | .recount t n => n ≤ room ∧ n < U32 - 1 ∧ (t = ERR ∨ t = REQ → n ≤ 1)

theorem recount_ok {cfg : Cfg} (hc : cfg.Ok) {t n : Nat} (h1 : n < U32 - 1) (h2 : t = ERR ∨ t = REQ → n ≤ 1) :
    (recount cfg t n).Ok := by
  unfold recount
  by_cases ht : t ≥ NUM_IRQS
  · rw [if_pos ht]; exact hc
  · rw [if_neg ht]
    refine ⟨fun i => ?_, ?_, ?_⟩
    · dsimp only
      split
      · exact h1
      · exact hc.small i
    · dsimp only
      split
      · rename_i h; exact h2 (.inl h.symm)
      · exact hc.err
    · dsimp only
      split
      · rename_i h; exact h2 (.inr h.symm)
      · exact hc.req

theorem recount_roomy {cfg : Cfg} {st : Irqs} (hr : Roomy cfg st) {t n : Nat} (h : n ≤ st.efds.length) :
    Roomy (recount cfg t n) st := by
  intro i hi
  unfold recount
  by_cases ht : t ≥ NUM_IRQS
  · rw [if_pos ht]; exact hr i hi
  · rw [if_neg ht]
    dsimp only
    split
    · exact h
    · exact hr i hi

/-- A request does not touch a vector beyond all numbers, and the array keeps its length. -/
theorem set_keeps {cfg : Cfg} (hc : cfg.Ok) {st : Irqs} (hr : Roomy cfg st) (wr : Nat → Option Nat) {body : List Byte}
    (h0 : body ≠ []) (fds : List Fd) :
    (handleSet cfg wr st body (fds.map some)).res.isFault = false ∧
    (handleSet cfg wr st body (fds.map some)).irqs.efds.length = st.efds.length ∧
    ∀ s, (∀ t i, t < 5 → i < cfg.cnt t → place t i ≠ s) → (handleSet cfg wr st body (fds.map some)).irqs.get s = st.get s := by
  by_cases h : ReqOk cfg body fds.length
  · have hrange : ∀ n i s, (∀ t j, t < 5 → j < cfg.cnt t → place t j ≠ s) → i + n ≤ cfg.cnt (Req.ofBytes body).index →
        s ∉ disSlots (Req.ofBytes body).index n i := by
      intro n i s hs hi hm
      rw [disSlots_eq, mem_places] at hm
      obtain ⟨j, _, h2, he⟩ := hm
      exact hs _ j h.index (by omega) he.symm
    have hcase := set_case hc hr wr h
    generalize handleSet cfg wr st body (fds.map some) = o at hcase
    cases hcase with
    | state ev ha hev => exact ⟨rfl, rfl, fun _ _ => rfl⟩
    | disable st' m ha hd hcl =>
      refine ⟨rfl, hcl.len, fun s hs => hcl.same s (hrange _ _ s hs ?_)⟩
      have := h.range
      rcases hd with ⟨_, _, h1, h2⟩ | ⟨_, _, _, h2⟩ <;> omega
    | signal sel ha hf hsel hn h0 =>
      refine ⟨?_, rfl, fun _ _ => rfl⟩
      rcases signalLoop_spec (Req.ofBytes body).index wr st sel (Req.ofBytes body).start 0
        (range_isSome hr h.index (by rw [hn]; exact h.range)) with ⟨_, he⟩ | ⟨m, e, _, _, hwr, he⟩ <;> rw [he] <;> rfl
    | bind st' ha hd hf hlen hl hb hs => exact ⟨rfl, hl, fun s hs' => hs s (hrange _ _ s hs' h.range)⟩
  · rw [C26_refused hc.small wr st fds h0 h]
    exact ⟨rfl, rfl, fun _ _ => rfl⟩

theorem reset_keeps {cfg : Cfg} (hc : cfg.Ok) {st : Irqs} (hr : Roomy cfg st) :
    ∃ st' ev, reset cfg st = .ok (st', ev) ∧ st'.efds.length = st.efds.length ∧ (∀ i, st'.at_ (.vec i) = none) ∧
      (cfg.cnt ERR = 0 → st'.err = st.err) ∧ (cfg.cnt ERR ≠ 0 → st'.err = none) ∧
      (cfg.cnt REQ = 0 → st'.req = st.req) ∧ (cfg.cnt REQ ≠ 0 → st'.req = none) := by
  obtain ⟨st1, h1, c1⟩ := disable_spec hc hr (index := REQ) (start := 0) (count := 0) (by decide) (by omega)
  simp only [if_true, Nat.sub_zero] at h1 c1
  have r1 : Roomy cfg st1 := fun i hi => by rw [c1.len]; exact hr i hi
  obtain ⟨st2, h2, c2⟩ := disable_spec hc r1 (index := ERR) (start := 0) (count := 0) (by decide) (by omega)
  simp only [if_true, Nat.sub_zero] at h2 c2
  obtain ⟨st3, h3, c3⟩ := resetLoop_spec st2.efds.length 0 st2 (by omega)
  have e1 : st1.err = st.err := by
    have := c1.same .err (by
      simp only [disSlots, List.mem_map, List.mem_range'_1, not_exists, not_and]
      intro x _
      simp [efdSlot, REQ, ERR])
    simpa [Irqs.get] using this
  have e2 : st2.req = st1.req := by
    have := c2.same .req (by
      simp only [disSlots, List.mem_map, List.mem_range'_1, not_exists, not_and]
      intro x _
      simp [efdSlot])
    simpa [Irqs.get] using this
  have e3 : st3.err = st2.err ∧ st3.req = st2.req := by
    have h4 := c3.same .err (by simp)
    have h5 := c3.same .req (by simp)
    exact ⟨by simpa [Irqs.get] using h4, by simpa [Irqs.get] using h5⟩
  refine ⟨st3, ?_⟩
  simp only [reset, h1, h2, h3]
  refine ⟨_, rfl, c3.len.trans (c2.len.trans c1.len), ?_, ?_, ?_, ?_, ?_⟩
  · intro i
    by_cases hi : i < st2.efds.length
    · have := c3.gone (.vec i) (by
        rw [List.mem_map]
        exact ⟨i, by rw [List.mem_range'_1]; omega, rfl⟩)
      simp [Irqs.at_, this]
    · have : st3.efds.length ≤ i := by rw [c3.len]; omega
      simp [Irqs.at_, Irqs.get, List.getElem?_eq_none this]
  · intro h0
    rw [h0] at c2
    have := c2.same .err (by simp [disSlots])
    rw [e3.1, ← e1]
    simpa [Irqs.get] using this
  · intro h0
    have := c2.gone .err (by
      simp only [disSlots, List.mem_map, List.mem_range'_1]
      exact ⟨0, by omega, rfl⟩)
    rw [e3.1]
    simpa [Irqs.get] using this
  · intro h0
    rw [h0] at c1
    have := c1.same .req (by simp [disSlots])
    rw [e3.2, e2]
    simpa [Irqs.get] using this
  · intro h0
    have := c1.gone .req (by
      simp only [disSlots, List.mem_map, List.mem_range'_1]
      exact ⟨0, by omega, rfl⟩)
    rw [e3.2, e2]
    simpa [Irqs.get] using this

theorem step_fits {cfg : Cfg} (hc : cfg.Ok) {st : Irqs} (hr : Roomy cfg st) {op : Op}
    (hb : ∀ wr body fds, op = .set wr body fds → body ≠ []) :
    (step cfg st op).res.isFault = false ∧ (step cfg st op).irqs.efds.length = st.efds.length := by
  cases op with
  | set wr body fds =>
    obtain ⟨h1, h2, _⟩ := set_keeps hc hr wr (hb _ _ _ rfl) fds
    exact ⟨h1, h2⟩
  | reset =>
    obtain ⟨st', ev, h, h1, _⟩ := reset_keeps hc hr
    simp only [step, h]
    exact ⟨rfl, h1⟩
  | trigger wr sub =>
    refine ⟨?_, rfl⟩
    simp only [step, trigger]
    split
    · rfl
    · rfl
    · split <;> rfl

theorem moves_safe (room : Nat) : ∀ (ms : List Move) {cfg : Cfg} {st : Irqs}, cfg.Ok → Roomy cfg st → st.efds.length = room →
    (∀ m ∈ ms, m.Within room) →
    (∀ o ∈ (moves cfg st ms).2, o.res.isFault = false) ∧ (moves cfg st ms).1.2.efds.length = room
  | [], _, _, _, _, hl, _ => ⟨fun _ h => absurd h (by simp [moves]), hl⟩
  | m :: ms, cfg, st, hc, hr, hl, hm => by
    have h0 := hm m List.mem_cons_self
    have h' : ∀ m ∈ ms, m.Within room := fun m h => hm m (List.mem_cons_of_mem _ h)
    cases m with
    | op op =>
      obtain ⟨s1, s2⟩ := step_fits hc hr (op := op) (by rintro wr body fds rfl; exact h0)
      have hr' : Roomy cfg (step cfg st op).irqs := fun i hi => by rw [s2]; exact hr i hi
      obtain ⟨i1, i2⟩ := moves_safe room ms hc hr' (s2.trans hl) h'
      refine ⟨fun o ho => ?_, i2⟩
      simp only [moves, move, Option.toList, List.cons_append, List.nil_append, List.mem_cons] at ho
      rcases ho with rfl | ho
      · exact s1
      · exact i1 o ho
    | recount t n =>
      obtain ⟨a, b, c⟩ := h0
      obtain ⟨i1, i2⟩ := moves_safe room ms (recount_ok hc b c) (recount_roomy hr (by omega : n ≤ st.efds.length)) hl h'
      exact ⟨fun o ho => i1 o (by simpa [moves, move] using ho), i2⟩

/-- C105: as long as no type gets more vectors than the largest number at `vfu_realize_ctx`, nothing crashes, whatever
requests, resets, triggers and changes of the numbers follow each other. -/
theorem C105_safe {cfg : Cfg} (hc : cfg.Ok) (ms : List Move) (hm : ∀ m ∈ ms, m.Within (maxIvs cfg)) :
    ∀ o ∈ (moves cfg (realize cfg) ms).2, o.res.isFault = false :=
  (moves_safe (maxIvs cfg) ms hc (wf_realize cfg).roomy (by simp [realize]) hm).1

/-- The request for one vector: type, vector, one descriptor comes along. -/
def bindOne (type i : Nat) : List Byte := msg 0x24 type i 1 []

theorem bindOne_req {type i : Nat} (ht : type < 3) (hi : i < U32) :
    Req.ofBytes (bindOne type i) = { argsz := 20, flags := 0x24, index := type, start := i, count := 1 } := by
  have hu : U32 = 256 ^ 4 := by decide
  have hs : (enc 4 20 ++ enc 4 0x24 ++ enc 4 type).length = 12 := by simp [enc_length]
  have h1 := leAt_field (enc 4 20 ++ enc 4 0x24) (enc 4 i ++ enc 4 1 ++ []) 4 type 8 (by simp [enc_length]) (by omega)
  have h2 := leAt_field (enc 4 20 ++ enc 4 0x24 ++ enc 4 type) (enc 4 1 ++ []) 4 i 12 hs (by omega)
  have h3 := leAt_field (enc 4 20 ++ enc 4 0x24 ++ enc 4 type ++ enc 4 i) [] 4 1 16 (by simp [enc_length]) (by decide)
  have h4 := leAt_field [] (enc 4 0x24 ++ enc 4 type ++ enc 4 i ++ enc 4 1 ++ []) 4 20 0 rfl (by decide)
  have h5 := leAt_field (enc 4 20) (enc 4 type ++ enc 4 i ++ enc 4 1 ++ []) 4 0x24 4 (by simp [enc_length]) (by decide)
  simp only [List.append_assoc, List.nil_append, List.append_nil] at h1 h2 h3 h4 h5
  simp only [Req.ofBytes, bindOne, msg, List.append_assoc, List.append_nil, h1, h2, h3, h4, h5]

theorem bindOne_ok {cfg : Cfg} {type i : Nat} (ht : type < 3) (hi : i < cfg.cnt type)
    (hs : ∀ t, cfg.cnt t < U32 - 1) : ReqOk cfg (bindOne type i) 1 := by
  have hq := bindOne_req ht (show i < U32 by have := hs type; omega)
  have hl : (bindOne type i).length = 20 := by simp [bindOne, msg, enc_length]
  constructor
  · omega
  all_goals rw [hq]
  · exact Nat.le_refl _
  · show type < 5; omega
  · show (0x24 &&& 0x38 : Nat) ∈ [8, 16, 32]; decide
  · show (0x24 &&& 7 : Nat) ∈ [1, 2, 4]; decide
  · exact hi
  · exact hi
  · intro h
    dsimp only at h
    omega
  · intro h; exact absurd (show (1 : Nat) = 0 from h) (by decide)
  · intro h; exact absurd (show (0x24 &&& 7 : Nat) = 2 from h) (by decide)
  · intro _; exact ⟨show (0x24 &&& 7 : Nat) = 4 by decide, rfl⟩

/-- C105: with a larger number, the client's request to bind a vector beyond the array is accepted and the descriptor is
written outside of the array. This holds of every vector beyond, in every state. -/
theorem C105_overrun {cfg : Cfg} {st : Irqs} {type i : Nat} (ht : type < 3) (hi : i < cfg.cnt type)
    (hs : ∀ t, cfg.cnt t < U32 - 1) (ho : st.efds.length ≤ i) (wr : Nat → Option Nat) (fd : Fd) :
    ReqOk cfg (bindOne type i) 1 ∧ (handleSet cfg wr st (bindOne type i) [some fd]).res = .fault .oob := by
  have hok := bindOne_ok ht hi hs
  refine ⟨hok, ?_⟩
  have hv := (validate_ok hs (bindOne type i) 1).2 hok
  have hi' : i < U32 - 1 := by have := hs type; omega
  have hq := bindOne_req ht (show i < U32 by omega)
  have hadd : add32 i 1 - i = 1 := by
    unfold add32
    rw [Nat.mod_eq_of_lt (by omega)]
    omega
  have hslot : efdSlot type i = .vec i := by
    unfold efdSlot ERR REQ
    rw [if_neg (by omega), if_neg (by omega)]
  unfold handleSet
  rw [List.length_singleton, hv]
  dsimp only
  rw [hq]
  have n1 : ¬ (Req.action ⟨20, 0x24, type, i, 1⟩ = ACT_MASK ∨ Req.action ⟨20, 0x24, type, i, 1⟩ = ACT_UNMASK) := by
    show ¬ ((0x24 &&& 0x38 : Nat) = 8 ∨ (0x24 &&& 0x38 : Nat) = 16); decide
  have n2 : ¬ isDisable ⟨20, 0x24, type, i, 1⟩ 1 = true := by simp [isDisable, Req.data, DATA_NONE]
  have n3 : ¬ Req.data ⟨20, 0x24, type, i, 1⟩ = DATA_NONE := by show ¬ (0x24 &&& 7 : Nat) = 1; decide
  have n4 : Req.data ⟨20, 0x24, type, i, 1⟩ = DATA_EVENTFD := by show (0x24 &&& 7 : Nat) = 4; decide
  rw [if_neg n1, if_neg n2, if_neg n3, if_pos n4]
  dsimp only
  rw [hadd]
  have hb : bindLoop type 1 1 i 0 st [some fd] = .fault .oob := by
    simp only [bindLoop, hslot, closeSlot, Irqs.get, List.getElem?_eq_none ho]
  rw [hb]

/-- Requests and triggers, and numbers of vectors up to `v`. -/
def Move.Below (v : Nat) : Move → Prop
  | .op (.set _ body _) => body ≠ []
  | .op (.trigger _ _) => True
  | .op .reset => False
  | .recount t n => n < U32 - 1 ∧ (t = ERR ∨ t = REQ → n ≤ 1) ∧ (t < 3 → n ≤ v)

/-- C105: a vector that is left beyond all numbers keeps its eventfd, and the device can still signal it; no request
reaches it. -/
theorem C105_stranded (v : Nat) : ∀ (ms : List Move) {cfg : Cfg} {st : Irqs}, cfg.Ok → Roomy cfg st →
    (∀ t, t < 3 → cfg.cnt t ≤ v) → (v < st.efds.length) → (∀ m ∈ ms, m.Below v) →
    (moves cfg st ms).1.2.get (.vec v) = st.get (.vec v)
  | [], _, _, _, _, _, _, _ => rfl
  | m :: ms, cfg, st, hc, hr, hv, hl, hm => by
    have h0 := hm m List.mem_cons_self
    have h' : ∀ m ∈ ms, m.Below v := fun m h => hm m (List.mem_cons_of_mem _ h)
    cases m with
    | op op =>
      cases op with
      | reset => exact h0.elim
      | trigger wr sub => exact C105_stranded v ms hc hr hv hl h'
      | set wr body fds =>
        obtain ⟨_, s2, s3⟩ := set_keeps hc hr wr h0 fds
        have hr' : Roomy cfg (step cfg st (.set wr body fds)).irqs := fun i hi => by
          have e : (step cfg st (.set wr body fds)).irqs.efds.length = st.efds.length := s2
          rw [e]; exact hr i hi
        have hl' : v < (step cfg st (.set wr body fds)).irqs.efds.length := by
          have e : (step cfg st (.set wr body fds)).irqs.efds.length = st.efds.length := s2
          rw [e]; exact hl
        refine (C105_stranded v ms hc hr' hv hl' h').trans (s3 (.vec v) ?_)
        intro t i ht hi he
        obtain ⟨h3, h4⟩ := place_vec he ht
        have := hv t h3
        omega
    | recount t n =>
      obtain ⟨a, b, c⟩ := h0
      have hn : t < 5 → n ≤ st.efds.length := by
        intro h5
        by_cases h3 : t < 3
        · have := c h3; omega
        · have : n ≤ 1 := b (by simp only [ERR, REQ]; omega)
          omega
      refine C105_stranded v ms (recount_ok hc a b) ?_ ?_ hl h'
      · by_cases h5 : t < 5
        · exact recount_roomy hr (hn h5)
        · have : recount cfg t n = cfg := by unfold recount NUM_IRQS; rw [if_pos (by omega)]
          show Roomy (recount cfg t n) st
          rw [this]; exact hr
      · intro t' ht'
        show (recount cfg t n).cnt t' ≤ v
        unfold recount
        by_cases h5 : t ≥ NUM_IRQS
        · rw [if_pos h5]; exact hv t' ht'
        · rw [if_neg h5]
          dsimp only
          split
          · rename_i he; exact c (he ▸ ht')
          · exact hv t' ht'

/-- C105: the eventfd of type ERR or REQ is lost when the number is set to 0: no reset closes it, the eventfds of all vectors
are closed. -/
theorem C105_unclosed {cfg : Cfg} (hc : cfg.Ok) {st : Irqs} (hr : Roomy cfg st) :
    ∃ st' ev, reset cfg st = .ok (st', ev) ∧ (∀ i, st'.at_ (.vec i) = none) ∧
      st'.err = (if cfg.cnt 3 = 0 then st.err else none) ∧ st'.req = (if cfg.cnt 4 = 0 then st.req else none) := by
  obtain ⟨st', ev, h1, _, h2, h3, h4, h5, h6⟩ := reset_keeps hc hr
  refine ⟨st', ev, h1, h2, ?_, ?_⟩
  · by_cases h : cfg.cnt 3 = 0
    · rw [if_pos h]; exact h3 h
    · rw [if_neg h]; exact h4 h
  · by_cases h : cfg.cnt 4 = 0
    · rw [if_pos h]; exact h5 h
    · rw [if_neg h]; exact h6 h

/-- Four MSI vectors become two, then eight. -/
def shrunk : List Move :=
  [.op (.set noErr (msg 0x24 1 3 1 []) [30]), .recount 1 2, .op (.set noErr (msg 0x21 1 0 0 []) []),
   .op (.trigger none 3), .recount 1 8, .op (.set noErr (msg 0x24 1 7 1 []) [31])]

example : maxIvs cfg0 = 8 ∧ cfg0.Ok ∧ (∀ m ∈ shrunk, m.Within 8) ∧
    (moves cfg0 (realize cfg0) shrunk).2.map (·.evs) = [[], [], [.signal 30], []] ∧
    (moves cfg0 (realize cfg0) shrunk).1.2.efds = [none, none, none, some 30, none, none, none, some 31] := by
  refine ⟨by decide +kernel, cfg0_ok, ?_, by decide +kernel, by decide +kernel⟩
  intro m hm
  simp only [shrunk, List.mem_cons, List.not_mem_nil, or_false] at hm
  rcases hm with rfl | rfl | rfl | rfl | rfl | rfl
  · show msg 0x24 1 3 1 [] ≠ []; decide +kernel
  · exact ⟨by decide, by decide, by decide⟩
  · show msg 0x21 1 0 0 [] ≠ []; decide +kernel
  · exact True.intro
  · exact ⟨by decide, by decide, by decide⟩
  · show msg 0x24 1 7 1 [] ≠ []; decide +kernel

/-- Sixteen MSI vectors after `vfu_realize_ctx` with eight: the request for the ninth. -/
example : (handleSet (recount cfg0 1 16) noErr (realize cfg0) (bindOne 1 8) [some 31]).res = .fault .oob := by decide +kernel

end Verif.Irq
