import Verif.Irq.Count

/-!
# Properties of interrupts (C26 to C31, C63, C64)

`place` is the specification's own reading of which place a vector of an interrupt type has: one each for ERR
(type 3) and REQ (type 4), a table shared by INTx, MSI and MSI-X. `ReqOk` (in `Irq/Lemmas.lean`) is the list of
conditions on a request.
-/

namespace Verif.Irq
open Verif

def place (type i : Nat) : Slot :=
  match type with
  | 3 => .err
  | 4 => .req
  | _ => .vec i

theorem efdSlot_eq (type i : Nat) : efdSlot type i = place type i := by
  unfold efdSlot place
  by_cases h3 : type = ERR
  · subst h3; rfl
  · by_cases h4 : type = REQ
    · subst h4; rfl
    · rw [if_neg h3, if_neg h4]
      simp only [ERR, REQ] at h3 h4
      split <;> first | contradiction | rfl

/-- Places of vectors `start, …, start + n - 1`. -/
def places (type start n : Nat) : List Slot := (List.range' start n).map (place type)

theorem disSlots_eq (type n start : Nat) : disSlots type n start = places type start n := by
  simp only [disSlots, places]
  exact List.map_congr_left (fun i _ => efdSlot_eq type i)

theorem mem_places {type start n : Nat} {s : Slot} : s ∈ places type start n ↔ ∃ i, start ≤ i ∧ i < start + n ∧ s = place type i := by
  simp only [places, List.mem_map, List.mem_range'_1]
  constructor
  · rintro ⟨i, ⟨h1, h2⟩, rfl⟩; exact ⟨i, h1, h2, rfl⟩
  · rintro ⟨i, h1, h2, rfl⟩; exact ⟨i, ⟨h1, h2⟩, rfl⟩

/-! ## Concrete device: one INTx, four MSI, eight MSI-X, ERR and REQ -/

def cfg0 : Cfg := { cnt := fun i => [1, 4, 8, 1, 1].getD i 0, hasCb := fun i => i == 0 }

theorem cfg0_ok : cfg0.Ok := by
  refine ⟨?_, by decide, by decide⟩
  intro i
  rcases i with _ | _ | _ | _ | _ | i
  all_goals (first | decide | simp [cfg0, U32])

/-- A SET_IRQS message. -/
def msg (flags index start count : Nat) (payload : List Byte) : List Byte :=
  enc 4 20 ++ enc 4 flags ++ enc 4 index ++ enc 4 start ++ enc 4 count ++ payload

def noErr : Nat → Option Nat := fun _ => none

/-- Vectors 1, 2 and 5 bound. -/
def st0 : Irqs := { err := none, req := some 9, efds := [none, some 11, some 12, none, none, some 15, none, none] }

theorem st0_wf : WF cfg0 st0 := ⟨by decide, by decide, by decide⟩

theorem accepted0 {b : List Byte} {n : Nat} (h : validate cfg0 b n = .ok ()) : ReqOk cfg0 b n :=
  (validate_ok cfg0_ok.small b n).1 h

/-! ## C26 -/

/-- Exactly the requests meeting `ReqOk` are accepted; the others are refused with EINVAL, and then nothing
happens: bindings and descriptors stay as they are, no callback, no signal, no close. -/
theorem C26_refused {cfg : Cfg} (hs : ∀ i, cfg.cnt i < U32 - 1) (wr : Nat → Option Nat) (st : Irqs) {body : List Byte}
    (fds : List Fd) (h0 : body ≠ []) (h : ¬ ReqOk cfg body fds.length) :
    handleSet cfg wr st body (fds.map some) = Out.mk st (fds.map some) (.err EINVAL) [] := by
  simp only [handleSet, List.length_map, validate_bad hs h0 h]

/-- An accepted request names vectors of a configured type only, and neither reads, binds, unbinds, signals or
masks anything else. The only way it fails is a failing write to an eventfd. -/
theorem C26_within {cfg : Cfg} (hc : cfg.Ok) {st : Irqs} (hw : WF cfg st) (wr : Nat → Option Nat) {body : List Byte}
    {fds : List Fd} {q : Req} (hq : Req.ofBytes body = q) (h : ReqOk cfg body fds.length) :
    let o := handleSet cfg wr st body (fds.map some)
    q.index < 5 ∧ q.start + q.count ≤ cfg.cnt q.index ∧
    (o.res = .ok () ∨ ∃ k e, wr k = some e ∧ o.res = .err e) ∧
    (∀ s, s ∉ places q.index 0 (cfg.cnt q.index) → o.irqs.get s = st.get s) ∧
    (∀ fd, .signal fd ∈ o.evs ∨ .close fd ∈ o.evs → ∃ i < cfg.cnt q.index, st.at_ (place q.index i) = some fd) ∧
    (∀ i a n m, .state i a n m ∈ o.evs → i = q.index ∧ a = q.start ∧ n = q.count) := by
  subst hq
  have hcase := set_case hc hw.roomy wr h
  refine ⟨h.index, h.range, ?_⟩
  have hclose : ∀ n i, i + n ≤ cfg.cnt (Req.ofBytes body).index → ∀ fd,
      Ev.signal fd ∈ (st.bound (disSlots (Req.ofBytes body).index n i)).map Ev.close ∨
      Ev.close fd ∈ (st.bound (disSlots (Req.ofBytes body).index n i)).map Ev.close →
      ∃ i < cfg.cnt (Req.ofBytes body).index, st.at_ (place (Req.ofBytes body).index i) = some fd := by
    intro n i hi fd hm
    simp only [List.mem_map, reduceCtorEq, and_false, exists_false, false_or, Ev.close.injEq, exists_eq_right,
      Irqs.bound, List.mem_filterMap, disSlots, List.mem_range'_1] at hm
    obtain ⟨s, ⟨j, hj, rfl⟩, he⟩ := hm
    exact ⟨j, by omega, by rw [← efdSlot_eq]; exact he⟩
  have hsub : ∀ n i, i + n ≤ cfg.cnt (Req.ofBytes body).index → ∀ s,
      s ∉ places (Req.ofBytes body).index 0 (cfg.cnt (Req.ofBytes body).index) →
      s ∉ disSlots (Req.ofBytes body).index n i := by
    intro n i hi s hs hm
    rw [disSlots_eq, mem_places] at hm
    obtain ⟨j, h1, h2, rfl⟩ := hm
    exact hs (mem_places.2 ⟨j, by omega, by omega, rfl⟩)
  generalize handleSet cfg wr st body (fds.map some) = o at hcase
  cases hcase with
  | state ev ha hev =>
    refine ⟨.inl rfl, fun _ _ => rfl, ?_, ?_⟩
    · intro fd hm
      rcases hev with rfl | ⟨m, rfl⟩ <;> simp at hm
    · intro i a n m hm
      rcases hev with rfl | ⟨m', rfl⟩
      · simp at hm
      · simp only [List.mem_singleton, Ev.state.injEq] at hm
        exact ⟨hm.1, hm.2.1, hm.2.2.1⟩
  | disable st' m ha hd hcl =>
    have hm : (Req.ofBytes body).start + (m - (Req.ofBytes body).start) ≤ cfg.cnt (Req.ofBytes body).index := by
      have := h.range
      rcases hd with ⟨_, _, h1, h2⟩ | ⟨_, _, _, h2⟩ <;> omega
    refine ⟨.inl rfl, fun s hs => hcl.same s (hsub _ _ hm s hs), hclose _ _ hm, ?_⟩
    intro i a n m hm
    simp at hm
  | signal sel ha hf hsel hn h0 =>
    have hsp := signalLoop_spec (Req.ofBytes body).index wr st sel (Req.ofBytes body).start 0
      (range_isSome hw.roomy h.index (by rw [hn]; exact h.range))
    have hsl : ∀ (sel : List Bool) (i : Nat), i + sel.length ≤ cfg.cnt (Req.ofBytes body).index → ∀ fd,
        fd ∈ selected st (Req.ofBytes body).index sel i →
        ∃ i < cfg.cnt (Req.ofBytes body).index, st.at_ (place (Req.ofBytes body).index i) = some fd := by
      intro sel
      induction sel with
      | nil => intro i _ fd hm; simp [selected] at hm
      | cons b sel ih =>
        intro i hi fd hm
        simp only [selected, List.mem_append] at hm
        simp only [List.length_cons] at hi
        rcases hm with hm | hm
        · split at hm
          · exact ⟨i, by omega, by rw [← efdSlot_eq]; exact Option.mem_toList.1 hm⟩
          · simp at hm
        · exact ih (i + 1) (by omega) fd hm
    refine ⟨?_, fun _ _ => rfl, ?_, ?_⟩
    · rcases hsp with ⟨_, he⟩ | ⟨m, e, _, _, hwr, he⟩
      · left; rw [he]
      · right; exact ⟨_, e, hwr, by rw [he]⟩
    · intro fd hm
      have hmem : fd ∈ selected st (Req.ofBytes body).index sel (Req.ofBytes body).start := by
        rcases hsp with ⟨_, he⟩ | ⟨m, e, _, _, hwr, he⟩
        · rw [he] at hm; simpa using hm
        · rw [he] at hm
          have : fd ∈ (selected st (Req.ofBytes body).index sel (Req.ofBytes body).start).take m := by
            simpa only [List.mem_map, Ev.signal.injEq, exists_eq_right, reduceCtorEq, and_false, exists_false,
              or_false] using hm
          exact List.mem_of_mem_take this
      exact hsl sel _ (by rw [hn]; exact h.range) fd hmem
    · intro i a n m hm
      rcases hsp with ⟨_, he⟩ | ⟨m, e, _, _, hwr, he⟩ <;>
        (rw [he] at hm; simp only [List.mem_map, reduceCtorEq, and_false, exists_false] at hm)
  | bind st' ha hd hf hlen hl hb hs =>
    refine ⟨.inl rfl, fun s hs' => hs s (hsub _ _ h.range s hs'), hclose _ _ h.range, ?_⟩
    intro i a n m hm
    simp at hm

/-- With `2^32 - 1` vectors configured the saturated sum is not above the count: a range ending beyond the
vectors is accepted. -/
theorem C26_violated : ∃ (cfg : Cfg) (body : List Byte), validate cfg body 0 = .ok () ∧
    (Req.ofBytes body).start + (Req.ofBytes body).count > cfg.cnt (Req.ofBytes body).index :=
  ⟨{ cnt := fun _ => 0xffffffff, hasCb := fun _ => false }, msg 0x21 0 1 0xffffffff [], by decide +kernel⟩

example : ReqOk cfg0 (msg 0x24 1 1 2 []) 2 := accepted0 (by decide +kernel)
example : ReqOk cfg0 (msg 0x22 2 5 3 [1#8, 0#8, 1#8]) 0 := accepted0 (by decide +kernel)
example : ¬ ReqOk cfg0 (msg 0x24 1 3 2 []) 2 := fun h => absurd h.range (by decide +kernel)
example : handleSet cfg0 noErr st0 (msg 0x24 1 3 2 []) [some 20, some 21] =
    Out.mk st0 [some 20, some 21] (.err EINVAL) [] := by decide +kernel
example : handleSet cfg0 noErr st0 (msg 0x21 1 2 0xffffffff []) [] = Out.mk st0 [] (.err EINVAL) [] := by
  decide +kernel

/-! ## C27 -/

theorem C27_bind {cfg : Cfg} (hc : cfg.Ok) {st : Irqs} (hw : WF cfg st) (wr : Nat → Option Nat) {body : List Byte}
    {fds : List Fd} {q : Req} (hq : Req.ofBytes body = q) (h : ReqOk cfg body fds.length) (ha : q.action = ACT_TRIGGER)
    (hf : fds ≠ []) :
    let o := handleSet cfg wr st body (fds.map some)
    fds.length = q.count ∧ o.res = .ok () ∧
    (∀ j (hj : j < fds.length), o.irqs.at_ (place q.index (q.start + j)) = some fds[j]) ∧
    (∀ s, s ∉ places q.index q.start q.count → o.irqs.get s = st.get s) ∧
    o.irqs.efds.length = st.efds.length ∧
    (∀ f ∈ o.fds, f = none) ∧
    o.evs = ((places q.index q.start q.count).filterMap st.at_).map Ev.close := by
  subst hq
  have hcase := set_case hc hw.roomy wr h
  have hd := (h.fds (by rwa [ne_eq, List.length_eq_zero_iff])).1
  generalize handleSet cfg wr st body (fds.map some) = o at hcase
  cases hcase with
  | state ev ha' hev => rw [ha] at ha'; rcases ha' with h1 | h1 <;> cases h1
  | disable st' m ha hd' hcl =>
    rcases hd' with ⟨h1, _⟩ | ⟨_, h1, _⟩
    · rw [hd] at h1; cases h1
    · exact absurd h1 hf
  | signal sel ha hf' hsel hn h0 => exact absurd hf' hf
  | bind st' ha hd hf hlen hl hb hs =>
    refine ⟨hlen, rfl, ?_, ?_, hl, ?_, ?_⟩
    · intro j hj
      have := hb j hj
      rw [efdSlot_eq] at this
      simp [Irqs.at_, this]
    · intro s hm; rw [← disSlots_eq] at hm; exact hs s hm
    · intro f hm; exact List.eq_of_mem_replicate hm
    · simp only [disSlots_eq, Irqs.bound]

example : handleSet cfg0 noErr st0 (msg 0x24 1 1 2 []) [some 20, some 21] =
    Out.mk { st0 with efds := [none, some 20, some 21, none, none, some 15, none, none] } [none, none] (.ok ())
      [.close 11, .close 12] := by decide +kernel

/-! ## C28 -/

/-- Disable all: trigger, no data, count 0. -/
theorem C28_all {cfg : Cfg} (hc : cfg.Ok) {st : Irqs} (hw : WF cfg st) (wr : Nat → Option Nat) {body : List Byte}
    {q : Req} (hq : Req.ofBytes body = q) (h : ReqOk cfg body 0) (h0 : q.count = 0) :
    let o := handleSet cfg wr st body []
    o.res = .ok () ∧
    (∀ i < cfg.cnt q.index, o.irqs.at_ (place q.index i) = none) ∧
    (∀ s, s ∉ places q.index 0 (cfg.cnt q.index) → o.irqs.get s = st.get s) ∧
    o.evs = ((places q.index 0 (cfg.cnt q.index)).filterMap st.at_).map Ev.close := by
  subst hq
  obtain ⟨hz1, hz2, hz3⟩ := h.zero h0
  have hcase := set_case hc hw.roomy wr (fds := []) h
  rw [List.map_nil] at hcase
  generalize handleSet cfg wr st body [] = o at hcase
  cases hcase with
  | state ev ha' hev => rw [hz2] at ha'; rcases ha' with h1 | h1 <;> cases h1
  | disable st' m ha hd' hcl =>
    rcases hd' with ⟨_, _, _, hm⟩ | ⟨h1, _⟩
    · rw [hz1, hm, Nat.sub_zero, disSlots_eq] at hcl ⊢
      refine ⟨rfl, ?_, fun s hs => hcl.same s hs, rfl⟩
      intro i hi
      have := hcl.gone _ (mem_places.2 ⟨i, by omega, by omega, rfl⟩)
      simp [Irqs.at_, this]
    · rw [hz3] at h1; cases h1
  | signal sel ha hf' hsel hn h0' => exact absurd h0 h0'
  | bind st' ha hd hf => exact absurd rfl hf

/-- What an eventfd request without descriptors does: it unbinds the vectors from `start` up to `count`
(not `start + count`). -/
theorem C28_exact {cfg : Cfg} (hc : cfg.Ok) {st : Irqs} (hw : WF cfg st) (wr : Nat → Option Nat) {body : List Byte}
    {q : Req} (hq : Req.ofBytes body = q) (h : ReqOk cfg body 0) (ha : q.action = ACT_TRIGGER)
    (hd : q.data = DATA_EVENTFD) :
    let o := handleSet cfg wr st body []
    o.res = .ok () ∧
    (∀ i, q.start ≤ i → i < q.count → o.irqs.at_ (place q.index i) = none) ∧
    (∀ s, s ∉ places q.index q.start (q.count - q.start) → o.irqs.get s = st.get s) ∧
    o.evs = ((places q.index q.start (q.count - q.start)).filterMap st.at_).map Ev.close := by
  subst hq
  have hcase := set_case hc hw.roomy wr (fds := []) h
  rw [List.map_nil] at hcase
  generalize handleSet cfg wr st body [] = o at hcase
  cases hcase with
  | state ev ha' hev => rw [ha] at ha'; rcases ha' with h1 | h1 <;> cases h1
  | disable st' m ha hd' hcl =>
    rcases hd' with ⟨h1, _⟩ | ⟨_, _, hne, hm⟩
    · rw [hd] at h1; cases h1
    · rw [hm, disSlots_eq] at hcl ⊢
      refine ⟨rfl, ?_, fun s hs => hcl.same s hs, rfl⟩
      intro i h1 h2
      have := hcl.gone _ (mem_places.2 ⟨i, h1, by omega, rfl⟩)
      simp [Irqs.at_, this]
  | signal sel ha hf' hsel hn h0' =>
    rcases hsel with ⟨h1, _⟩ | ⟨h1, _⟩ <;> (rw [hd] at h1; cases h1)
  | bind st' ha hd hf => exact absurd rfl hf

/-- A range beginning at vector 0 is unbound exactly. -/
theorem C28_range {cfg : Cfg} (hc : cfg.Ok) {st : Irqs} (hw : WF cfg st) (wr : Nat → Option Nat) {body : List Byte}
    {q : Req} (hq : Req.ofBytes body = q) (h : ReqOk cfg body 0) (ha : q.action = ACT_TRIGGER)
    (hd : q.data = DATA_EVENTFD) (h0 : q.start = 0) :
    let o := handleSet cfg wr st body []
    o.res = .ok () ∧
    (∀ i, i < q.count → o.irqs.at_ (place q.index i) = none) ∧
    (∀ s, s ∉ places q.index 0 q.count → o.irqs.get s = st.get s) ∧
    o.evs = ((places q.index 0 q.count).filterMap st.at_).map Ev.close := by
  have := C28_exact hc hw wr hq h ha hd
  rw [h0, Nat.sub_zero] at this
  exact ⟨this.1, fun i hi => this.2.1 i (Nat.zero_le _) hi, this.2.2⟩

/-- A range beginning above 0 is not: vectors 2 to 4 are named, the request succeeds, vector 2 is unbound, vectors
3 and 4 stay bound. -/
theorem C28_violated : ∃ (cfg : Cfg) (st : Irqs) (body : List Byte), cfg.Ok ∧ WF cfg st ∧ ReqOk cfg body 0 ∧
    (Req.ofBytes body).start = 2 ∧ (Req.ofBytes body).count = 3 ∧
    (handleSet cfg noErr st body []).res = .ok () ∧
    (handleSet cfg noErr st body []).irqs.at_ (.vec 2) = none ∧
    (handleSet cfg noErr st body []).irqs.at_ (.vec 3) = some 13 ∧
    (handleSet cfg noErr st body []).irqs.at_ (.vec 4) = some 14 :=
  ⟨cfg0, { err := none, req := none, efds := [none, none, some 12, some 13, some 14, none, none, none] },
    msg 0x24 2 2 3 [], cfg0_ok, ⟨by decide, by decide, by decide⟩, accepted0 (by decide +kernel), by decide +kernel,
    by decide +kernel, by decide +kernel, by decide +kernel, by decide +kernel, by decide +kernel⟩

example : ReqOk cfg0 (msg 0x21 1 0 0 []) 0 := accepted0 (by decide +kernel)
example : ReqOk cfg0 (msg 0x24 2 0 3 []) 0 := accepted0 (by decide +kernel)
/-- Disabling MSI (four vectors) leaves vector 5 bound. -/
example : handleSet cfg0 noErr st0 (msg 0x21 1 0 0 []) [] =
    Out.mk { st0 with efds := [none, none, none, none, none, some 15, none, none] } [] (.ok ())
      [.close 11, .close 12] := by decide +kernel

/-! ## C29 -/

/-- The decision of `vfu_irq_trigger` in a given state. -/
theorem C29_trigger {cfg : Cfg} {st : Irqs} (hw : WF cfg st) (wr : Option Nat) (sub : Nat) :
    ((∀ i < 5, cfg.cnt i ≤ sub) → trigger wr st sub = (.err EINVAL, [])) ∧
    ((∃ i < 5, sub < cfg.cnt i) → st.at_ (.vec sub) = none → trigger wr st sub = (.err ENOENT, [])) ∧
    (∀ fd, st.at_ (.vec sub) = some fd → trigger wr st sub =
      match wr with
      | none => (.ok (), [.signal fd])
      | some e => (.err e, [])) ∧
    (step cfg st (.trigger wr sub)).irqs = st := by
  refine ⟨?_, ?_, ?_, rfl⟩
  · intro h
    have : maxIvs cfg ≤ sub := by
      have hr : List.range NUM_IRQS = [0, 1, 2, 3, 4] := by decide
      simp only [maxIvs, hr, List.foldl_cons, List.foldl_nil]
      have h0 := h 0 (by decide)
      have h1 := h 1 (by decide)
      have h2 := h 2 (by decide)
      have h3 := h 3 (by decide)
      have h4 := h 4 (by decide)
      split_ifs <;> omega
    have hn : st.efds[sub]? = none := List.getElem?_eq_none (by rw [hw.len]; exact this)
    simp [trigger, hn]
  · rintro ⟨i, hi, hlt⟩ hn
    have := cnt_le_max cfg hi
    have hs : sub < st.efds.length := by rw [hw.len]; omega
    have : st.efds[sub]? = some none := by
      simp only [Irqs.at_, Irqs.get] at hn
      rw [List.getElem?_eq_getElem hs] at hn ⊢
      simpa using hn
    simp [trigger, this]
  · intro fd hf
    have : st.efds[sub]? = some (some fd) := by
      simp only [Irqs.at_, Irqs.get] at hf
      rcases he : st.efds[sub]? with _ | _ | x
      · rw [he] at hf; cases hf
      · rw [he] at hf; cases hf
      · rw [he] at hf
        simp only [Option.join_some, Option.some.injEq] at hf
        rw [hf]
    simp only [trigger, this]
    cases wr <;> rfl

/-- The operation is an accepted request that rebinds or unbinds vector `v` of the shared table, or a reset. -/
def Rebinds (cfg : Cfg) (v : Nat) : Op → Prop
  | .set _ body fds =>
    ReqOk cfg body fds.length ∧ (Req.ofBytes body).action = 32 ∧ (Req.ofBytes body).index < 3 ∧
    (((Req.ofBytes body).data = 4 ∧ (Req.ofBytes body).start ≤ v ∧
        v < (Req.ofBytes body).start + (Req.ofBytes body).count) ∨
      ((Req.ofBytes body).data = 1 ∧ (Req.ofBytes body).count = 0 ∧ v < cfg.cnt (Req.ofBytes body).index))
  | .reset => True
  | .trigger .. => False

theorem place_vec {type i v : Nat} (h : place type i = .vec v) (h5 : type < 5) : type < 3 ∧ i = v := by
  unfold place at h
  split at h
  · cases h
  · cases h
  · rename_i h3 h4
    injection h with h
    refine ⟨?_, h⟩
    have h3 : type ≠ 3 := h3
    have h4 : type ≠ 4 := h4
    omega

theorem place_lt3 {type : Nat} (i : Nat) (h : type < 3) : place type i = .vec i := by
  unfold place
  split <;> first | omega | rfl

theorem keeps {cfg : Cfg} (hc : cfg.Ok) {st : Irqs} (hw : WF cfg st) {v : Nat} {op : Op} (h : ¬ Rebinds cfg v op) :
    (step cfg st op).irqs.get (.vec v) = st.get (.vec v) := by
  cases op with
  | reset => exact absurd trivial h
  | trigger wr sub => rfl
  | set wr body fds =>
    simp only [step]
    by_cases h0 : body = []
    · subst h0; rfl
    by_cases hr : ReqOk cfg body fds.length
    · have hcase := set_case hc hw.roomy wr hr
      have hnot : ∀ n, (Req.ofBytes body).action = 32 →
          (∀ i, (Req.ofBytes body).start ≤ i → i < (Req.ofBytes body).start + n →
            ((Req.ofBytes body).data = 4 ∧ i < (Req.ofBytes body).start + (Req.ofBytes body).count) ∨
            ((Req.ofBytes body).data = 1 ∧ (Req.ofBytes body).count = 0 ∧ i < cfg.cnt (Req.ofBytes body).index)) →
          Slot.vec v ∉ disSlots (Req.ofBytes body).index n (Req.ofBytes body).start := by
        intro n ha hn hm
        rw [disSlots_eq, mem_places] at hm
        obtain ⟨i, h1, h2, h3⟩ := hm
        obtain ⟨h4, rfl⟩ := place_vec h3.symm hr.index
        refine h ⟨hr, ha, h4, ?_⟩
        rcases hn i h1 h2 with ⟨h5, h6⟩ | ⟨h5, h6, h7⟩
        · exact .inl ⟨h5, h1, h6⟩
        · exact .inr ⟨h5, h6, h7⟩
      generalize handleSet cfg wr st body (fds.map some) = o at hcase
      cases hcase with
      | state => rfl
      | signal => rfl
      | disable st' m ha hd hcl =>
        refine hcl.same _ (hnot _ ha ?_)
        intro i h1 h2
        rcases hd with ⟨h3, h4, h5, h6⟩ | ⟨h3, _, _, h6⟩
        · right; exact ⟨h3, h4, by omega⟩
        · left; exact ⟨h3, by omega⟩
      | bind st' ha hd hf hlen hl hb hs =>
        refine hs _ (hnot _ ha ?_)
        intro i h1 h2
        exact .inl ⟨hd, h2⟩
    · rw [C26_refused hc.small wr st fds h0 hr]

theorem keeps_run {cfg : Cfg} (hc : cfg.Ok) {v : Nat} (ops : List Op) : ∀ {st : Irqs}, WF cfg st →
    (∀ op ∈ ops, ¬ Rebinds cfg v op) → (run cfg st ops).get (.vec v) = st.get (.vec v) := by
  induction ops with
  | nil => intro st _ _; rfl
  | cons op ops ih =>
    intro st hw h
    simp only [run]
    rw [ih (wf_step hc hw op) (fun o ho => h o (List.mem_cons_of_mem _ ho))]
    exact keeps hc hw (h op (List.mem_cons_self ..))

theorem run_append (cfg : Cfg) (a b : List Op) : ∀ st, run cfg st (a ++ b) = run cfg (run cfg st a) b := by
  induction a with
  | nil => intro st; rfl
  | cons op a ih => intro st; exact ih _

/-- Over any history: the eventfd signalled for a vector is the one the client bound last. `h1` and `h2` are
arbitrary; nothing in `h2` rebinds the vector. -/
theorem C29_last_bound {cfg : Cfg} (hc : cfg.Ok) (h1 h2 : List Op) (wr : Nat → Option Nat) {body : List Byte}
    {fds : List Fd} {q : Req} (hq : Req.ofBytes body = q) (h : ReqOk cfg body fds.length) (ha : q.action = ACT_TRIGGER)
    (ht : q.index < 3) {j : Nat} (hj : j < fds.length)
    (hk : ∀ op ∈ h2, ¬ Rebinds cfg (q.start + j) op) :
    trigger none (run cfg (realize cfg) (h1 ++ .set wr body fds :: h2)) (q.start + j) = (.ok (), [.signal fds[j]]) := by
  have w1 := wf_run hc h1 (wf_realize cfg)
  have hf : fds ≠ [] := by rintro rfl; simp at hj
  obtain ⟨_, _, hb, _⟩ := C27_bind hc w1 wr hq h ha hf
  have w2 := wf_step hc w1 (.set wr body fds)
  have hkeep := keeps_run hc h2 w2 hk
  rw [run_append]
  have hat : (run cfg (run cfg (realize cfg) h1) (.set wr body fds :: h2)).at_ (.vec (q.start + j)) = some fds[j] := by
    rw [← hb j hj, place_lt3 _ ht]
    simp only [Irqs.at_, run]
    rw [hkeep]
    rfl
  exact (C29_trigger (wf_run hc h2 w2) none _).2.2.1 _ hat

/-- Over any history with no request that binds the vector since the last reset (or since the start), it is
unbound. -/
theorem C29_never_bound {cfg : Cfg} (hc : cfg.Ok) (h2 : List Op) {v : Nat} (hv : ∃ i < 5, v < cfg.cnt i)
    (hk : ∀ op ∈ h2, ¬ Rebinds cfg v op) (h1 : List Op) (h : h1 = [] ∨ ∃ h0, h1 = h0 ++ [.reset]) :
    trigger none (run cfg (realize cfg) (h1 ++ h2)) v = (.err ENOENT, []) := by
  have w1 := wf_run hc h1 (wf_realize cfg)
  rw [run_append]
  have hk' := keeps_run hc h2 w1 hk
  refine (C29_trigger (wf_run hc h2 w1) none v).2.1 hv ?_
  simp only [Irqs.at_]
  rw [hk']
  rcases h with rfl | ⟨h0, rfl⟩
  · simp only [run, realize, Irqs.get, List.getElem?_replicate]
    split <;> rfl
  · rw [run_append]
    obtain ⟨st', ev, hr, _, hn⟩ := reset_spec hc (wf_run hc h0 (wf_realize cfg))
    have := hn (.vec v)
    simpa only [run, step, hr, Irqs.at_] using this

example : trigger none (run cfg0 (realize cfg0) ([.set noErr (msg 0x24 1 0 4 []) [30, 31, 32, 33]] ++
    .set noErr (msg 0x24 1 1 2 []) [20, 21] :: [.trigger none 1, .set noErr (msg 0x24 2 3 1 []) [40]])) 2 =
    (.ok (), [.signal 21]) := by decide +kernel
example : ¬ Rebinds cfg0 2 (.set noErr (msg 0x24 2 3 1 []) [40]) := by
  rintro ⟨_, _, _, h | h⟩
  · exact absurd h.2.1 (by decide +kernel)
  · exact absurd h.1 (by decide +kernel)

/-! ## C30 -/

/-- Specification: the descriptors of the selected bound vectors, in order. -/
def wanted (st : Irqs) (type start : Nat) (sel : List Bool) : List Fd :=
  (sel.zipIdx start).filterMap (fun p => if p.1 then st.at_ (place type p.2) else none)

theorem selected_eq (st : Irqs) (type : Nat) (sel : List Bool) : ∀ start,
    selected st type sel start = wanted st type start sel := by
  induction sel with
  | nil => intro s; rfl
  | cons b sel ih =>
    intro s
    simp only [selected, wanted, List.zipIdx_cons, List.filterMap_cons]
    rw [ih, efdSlot_eq]
    cases b
    · simp [wanted]
    · rcases h : st.at_ (place type s) with _ | x <;> simp [wanted]

/-- A trigger with data none or booleans signals the wanted vectors in order; a failing write number `m` ends it
after the first `m` signals. Bindings do not change. -/
theorem C30_loopback {cfg : Cfg} (hc : cfg.Ok) {st : Irqs} (hw : WF cfg st) (wr : Nat → Option Nat) {body : List Byte}
    {q : Req} (hq : Req.ofBytes body = q) (h : ReqOk cfg body 0) (ha : q.action = ACT_TRIGGER) (h0 : q.count ≠ 0)
    {sel : List Bool}
    (hsel : (q.data = DATA_NONE ∧ sel = List.replicate q.count true) ∨
      (q.data = DATA_BOOL ∧ sel = (body.drop 20).map (fun b => b == 1#8))) :
    let o := handleSet cfg wr st body []
    let ws := wanted st q.index q.start sel
    o.irqs = st ∧
    ((∀ m < ws.length, wr m = none) → o.res = .ok () ∧ o.evs = ws.map Ev.signal) ∧
    (∀ m e, m < ws.length → (∀ m' < m, wr m' = none) → wr m = some e →
      o.res = .err e ∧ o.evs = (ws.take m).map Ev.signal) := by
  subst hq
  have hcase := set_case hc hw.roomy wr (fds := []) h
  rw [List.map_nil] at hcase
  generalize handleSet cfg wr st body [] = o at hcase
  cases hcase with
  | state ev ha' hev => rw [ha] at ha'; rcases ha' with h1 | h1 <;> cases h1
  | disable st' m ha hd' hcl =>
    rcases hd' with ⟨_, h1, _⟩ | ⟨h1, _⟩
    · exact absurd h1 h0
    · rcases hsel with ⟨h2, _⟩ | ⟨h2, _⟩ <;> (rw [h1] at h2; cases h2)
  | bind st' ha hd hf => exact absurd rfl hf
  | signal sel' ha hf' hsel' hn h0' =>
    have hss : sel' = sel := by
      rcases hsel with ⟨h1, h2⟩ | ⟨h1, h2⟩ <;> rcases hsel' with ⟨h3, h4⟩ | ⟨h3, h4⟩
      · rw [h2, h4]
      · rw [h1] at h3; cases h3
      · rw [h1] at h3; cases h3
      · rw [h2, h4]
    subst hss
    have hsp := signalLoop_spec (Req.ofBytes body).index wr st sel' (Req.ofBytes body).start 0
      (range_isSome hw.roomy h.index (by rw [hn]; exact h.range))
    simp only [selected_eq, Nat.zero_add] at hsp
    refine ⟨rfl, ?_, ?_⟩
    · intro hall
      rcases hsp with ⟨_, he⟩ | ⟨m, e, hm, _, hwr, he⟩
      · rw [he]; exact ⟨rfl, rfl⟩
      · have := hall m hm; rw [hwr] at this; cases this
    · intro m e hm hb hwr
      rcases hsp with ⟨hall, he⟩ | ⟨m', e', hm', hb', hwr', he⟩
      · have := hall m hm; rw [hwr] at this; cases this
      · have : m = m' := by
          rcases Nat.lt_trichotomy m m' with h1 | h1 | h1
          · have := hb' m h1; rw [hwr] at this; cases this
          · exact h1
          · have := hb m' h1; rw [hwr'] at this; cases this
        subst this
        rw [hwr] at hwr'
        injection hwr' with h1
        subst h1
        rw [he]; exact ⟨rfl, rfl⟩

example : handleSet cfg0 noErr st0 (msg 0x21 2 0 8 []) [] = Out.mk st0 [] (.ok ())
    [.signal 11, .signal 12, .signal 15] := by decide +kernel
example : handleSet cfg0 noErr st0 (msg 0x22 2 1 5 [1#8, 0#8, 1#8, 1#8, 1#8]) [] = Out.mk st0 [] (.ok ())
    [.signal 11, .signal 15] := by decide +kernel
example : handleSet cfg0 (fun k => if k = 1 then some 11 else none) st0 (msg 0x21 2 0 8 []) [] =
    Out.mk st0 [] (.err 11) [.signal 11] := by decide +kernel

/-! ## C31 -/

/-- How often a descriptor arrived with a request and was taken out of it, over a history. -/
def taken (cfg : Cfg) (x : Fd) : Irqs → List Op → Nat
  | _, [] => 0
  | st, .set wr body fds :: ops =>
    (fds.count x - (handleSet cfg wr st body (fds.map some)).fds.count (some x)) +
      taken cfg x (step cfg st (.set wr body fds)).irqs ops
  | st, op :: ops => taken cfg x (step cfg st op).irqs ops

/-- How often it was closed by the interrupt code over a history. -/
def closed (cfg : Cfg) (x : Fd) : Irqs → List Op → Nat
  | _, [] => 0
  | st, op :: ops => (step cfg st op).evs.count (.close x) + closed cfg x (step cfg st op).irqs ops

/-- How often it arrived over a history. -/
def arrived (x : Fd) : List Op → Nat
  | [] => 0
  | .set _ _ fds :: ops => fds.count x + arrived x ops
  | _ :: ops => arrived x ops

theorem count_map_some (l : List Fd) (x : Fd) : (l.map some).count (some x) = l.count x := by
  induction l with
  | nil => rfl
  | cons a l ih => simp [List.count_cons, ih]

theorem signal_noclose (wr : Option Nat) (st : Irqs) (sub : Nat) (x : Fd) :
    (trigger wr st sub).2.count (.close x) = 0 := by
  unfold trigger
  split
  · rfl
  · rfl
  · split <;> simp

theorem set_fds_le (cfg : Cfg) (wr : Nat → Option Nat) (st : Irqs) (body : List Byte) (fds : List (Option Fd)) (x : Fd) :
    (handleSet cfg wr st body fds).fds.count (some x) ≤ fds.count (some x) := by
  have hb : ∀ (index count n i j : Nat) (st st' : Irqs) (fds fds' : List (Option Fd)) (ev : List Ev),
      bindLoop index count n i j st fds = .ok (st', fds', ev) → fds'.count (some x) ≤ fds.count (some x) := by
    intro index count n
    induction n with
    | zero =>
      intro i j st st' fds fds' ev h
      injection h with h
      injection h with h1 h2
      injection h2 with h2 h3
      subst h2
      exact Nat.le_refl _
    | succ n ih =>
      intro i j st st' fds fds' ev h
      simp only [bindLoop] at h
      cases hc : closeSlot st (efdSlot index i) with
      | err e => rw [hc] at h; cases h
      | fault f => rw [hc] at h; cases h
      | ok p =>
        rw [hc] at h
        simp only at h
        rcases hj : fds[j]? with _ | _ | fd
        · rw [hj] at h; cases h
        · rw [hj] at h; cases h
        · rw [hj] at h
          simp only at h
          generalize hr : bindLoop index count n (i + 1) (j + 1) _ _ = r at h
          rcases r with ⟨st2, fds2, ev2⟩ | e | f
          · injection h with h
            injection h with h1 h2
            injection h2 with h2 h3
            subst h2
            have e2 := ih _ _ _ _ _ _ _ hr
            have hcs := count_set' none x hj
            rw [ind_none] at hcs
            split at e2 <;> omega
          · cases h
          · cases h
  unfold handleSet
  split
  · exact Nat.le_refl _
  · exact Nat.le_refl _
  · dsimp only
    split
    · split <;> exact Nat.le_refl _
    · split
      · split <;> exact Nat.le_refl _
      · split
        · exact Nat.le_refl _
        · split
          · split
            · rename_i h; exact hb _ _ _ _ _ _ _ _ _ _ h
            · exact Nat.le_refl _
            · exact Nat.le_refl _
          · split <;> exact Nat.le_refl _

/-- Conservation, from any state, for any history and any device configuration: the descriptors taken are those
bound now plus those closed. -/
theorem C31_conserved (cfg : Cfg) (x : Fd) (ops : List Op) : ∀ st : Irqs,
    st.times x + taken cfg x st ops = (run cfg st ops).times x + closed cfg x st ops := by
  induction ops with
  | nil => intro st; rfl
  | cons op ops ih =>
    intro st
    have h := ih (step cfg st op).irqs
    cases op with
    | set wr body fds =>
      have h1 := set_times cfg wr st body (fds.map some) x
      have h2 := set_fds_le cfg wr st body (fds.map some) x
      rw [count_map_some] at h1 h2
      simp only [run, taken, closed, step] at h ⊢
      omega
    | reset =>
      simp only [run, taken, closed] at h ⊢
      simp only [step] at h ⊢
      cases hr : reset cfg st with
      | ok p =>
        have := reset_times x (st' := p.1) (ev := p.2) hr
        rw [hr] at h
        dsimp only at h ⊢
        omega
      | err e => rw [hr] at h; simpa using h
      | fault f => rw [hr] at h; simpa using h
    | trigger wr sub =>
      have := signal_noclose wr st sub x
      simp only [run, taken, closed, step] at h ⊢
      omega

theorem taken_le (cfg : Cfg) (x : Fd) (ops : List Op) : ∀ st : Irqs, taken cfg x st ops ≤ arrived x ops := by
  induction ops with
  | nil => intro st; exact Nat.le_refl _
  | cons op ops ih =>
    intro st
    cases op with
    | set wr body fds =>
      have := ih (step cfg st (.set wr body fds)).irqs
      simp only [taken, arrived]
      omega
    | reset => exact ih _
    | trigger => exact ih _

/-- A descriptor that arrives once is, at any time, in one of three situations: never taken, bound to exactly one
vector and not closed, or bound to none and closed exactly once. -/
theorem C31_once (cfg : Cfg) (x : Fd) (ops : List Op) (h : arrived x ops ≤ 1) :
    let st := run cfg (realize cfg) ops
    let t := taken cfg x (realize cfg) ops
    let c := closed cfg x (realize cfg) ops
    (t = 0 ∧ st.times x = 0 ∧ c = 0) ∨ (t = 1 ∧ st.times x = 1 ∧ c = 0) ∨ (t = 1 ∧ st.times x = 0 ∧ c = 1) := by
  intro st t c
  have h1 := C31_conserved cfg x ops (realize cfg)
  have h2 := taken_le cfg x ops (realize cfg)
  have h0 : (realize cfg).times x = 0 := by
    simp [realize, Irqs.times, ind, List.count_replicate]
  have e1 : taken cfg x (realize cfg) ops = t := rfl
  have e2 : (run cfg (realize cfg) ops).times x = st.times x := rfl
  have e3 : closed cfg x (realize cfg) ops = c := rfl
  omega

theorem times_zero {st : Irqs} (h : ∀ s, st.at_ s = none) (x : Fd) : st.times x = 0 := by
  have h1 : st.err = none := by simpa [Irqs.at_, Irqs.get] using h .err
  have h2 : st.req = none := by simpa [Irqs.at_, Irqs.get] using h .req
  have h3 : st.efds.count (some x) = 0 := by
    rw [List.count_eq_zero]
    intro hm
    obtain ⟨i, hi, he⟩ := List.mem_iff_getElem.1 hm
    have := h (.vec i)
    simp [Irqs.at_, Irqs.get, List.getElem?_eq_getElem hi, he] at this
  simp [Irqs.times, h1, h2, h3, ind_none]

/-- After a connection reset nothing is bound, so everything taken has been closed. -/
theorem C31_reset {cfg : Cfg} (hc : cfg.Ok) (ops : List Op) :
    (step cfg (run cfg (realize cfg) ops) .reset).res = .ok () ∧
    (∀ s, (run cfg (realize cfg) (ops ++ [.reset])).at_ s = none) ∧
    (∀ x, taken cfg x (realize cfg) (ops ++ [.reset]) = closed cfg x (realize cfg) (ops ++ [.reset])) := by
  obtain ⟨st', ev, hr, _, hn⟩ := reset_spec hc (wf_run hc ops (wf_realize cfg))
  have hst : run cfg (realize cfg) (ops ++ [.reset]) = st' := by
    rw [run_append]
    simp only [run, step, hr]
  refine ⟨by simp only [step, hr], by rw [hst]; exact hn, ?_⟩
  intro x
  have h1 := C31_conserved cfg x (ops ++ [.reset]) (realize cfg)
  have h0 : (realize cfg).times x = 0 := by
    simp [realize, Irqs.times, ind, List.count_replicate]
  rw [hst, times_zero hn x, h0] at h1
  omega

/-- Bind three, rebind one, reset. -/
def ops0 : List Op :=
  [.set noErr (msg 0x24 1 0 3 []) [30, 31, 32], .set noErr (msg 0x24 2 1 1 []) [40], .set noErr (msg 0x24 4 0 1 []) [50]]

example : (taken cfg0 31 (realize cfg0) ops0, (run cfg0 (realize cfg0) ops0).times 31,
    closed cfg0 31 (realize cfg0) ops0) = (1, 0, 1) := by decide +kernel
example : (taken cfg0 50 (realize cfg0) ops0, (run cfg0 (realize cfg0) ops0).times 50,
    closed cfg0 50 (realize cfg0) ops0) = (1, 1, 0) := by decide +kernel
example : (run cfg0 (realize cfg0) (ops0 ++ [.reset])) = realize cfg0 := by decide +kernel

/-! ## C63: mask and unmask -/

/-- Mask and unmask requests change no binding and signal nothing: they call the device's callback once, with the
whole range of the request, or do nothing if there is none. -/
theorem C63_mask {cfg : Cfg} (hc : cfg.Ok) {st : Irqs} (wr : Nat → Option Nat) {body : List Byte}
    {fds : List Fd} {q : Req} (hq : Req.ofBytes body = q) (h : ReqOk cfg body fds.length)
    (ha : q.action = ACT_MASK ∨ q.action = ACT_UNMASK) :
    handleSet cfg wr st body (fds.map some) = Out.mk st (fds.map some) (.ok ())
      (if cfg.hasCb q.index then [.state q.index q.start q.count (q.action == ACT_MASK)] else []) := by
  subst hq
  have hv := (validate_ok hc.small body fds.length).2 h
  have hidx : ¬ (Req.ofBytes body).index ≥ NUM_IRQS := by have := h.index; simp only [NUM_IRQS]; omega
  have hact' : ¬ ((Req.ofBytes body).action &&& ACT_MASK = 0 ∧ (Req.ofBytes body).action &&& ACT_UNMASK = 0) := by
    rcases ha with ha | ha <;> rw [ha] <;> decide
  have hsm := hc.small (Req.ofBytes body).index
  have hadd : ¬ add32 (Req.ofBytes body).start (Req.ofBytes body).count > cfg.cnt (Req.ofBytes body).index := by
    have : add32 (Req.ofBytes body).start (Req.ofBytes body).count =
        (Req.ofBytes body).start + (Req.ofBytes body).count := by
      unfold add32
      exact Nat.mod_eq_of_lt (by have := h.range; omega)
    rw [this]
    have := h.range
    omega
  have hx : setState cfg (Req.ofBytes body) = .ok (if cfg.hasCb (Req.ofBytes body).index then
      [.state (Req.ofBytes body).index (Req.ofBytes body).start (Req.ofBytes body).count
        ((Req.ofBytes body).action == ACT_MASK)] else []) := by
    by_cases hcb : cfg.hasCb (Req.ofBytes body).index = false
    · simp only [setState, if_neg hidx, hcb]
      rfl
    · have hcb' : cfg.hasCb (Req.ofBytes body).index = true := by simpa using hcb
      simp only [setState, if_neg hidx, if_neg hadd, if_neg hact', hcb', if_true]
      rw [if_neg (by decide)]
      rcases ha with ha | ha <;> rw [ha] <;> rfl
  unfold handleSet
  rw [List.length_map, hv]
  dsimp only
  rw [if_pos ha, hx]

/-- With boolean data the booleans are not looked at: a mask request whose only boolean is 0 masks the vector. -/
theorem C63_violated : handleSet cfg0 noErr st0 (msg 0x0a 0 0 1 [0#8]) [] =
    Out.mk st0 [] (.ok ()) [.state 0 0 1 true] := by decide +kernel

/-! ## C64: what a client is told about interrupts -/

/-- GET_IRQ_INFO reports the configured count for the requested type (decoded from the reply bytes), refuses an
undersized request and an unknown type with EINVAL. -/
theorem C64_info {cfg : Cfg} (hs : ∀ i, cfg.cnt i < U32) (body : List Byte) :
    (body.length < 16 ∨ leAt body 0 4 < 16 ∨ 5 ≤ leAt body 8 4 → irqInfo cfg true body = .err EINVAL) ∧
    (16 ≤ body.length → 16 ≤ leAt body 0 4 → leAt body 8 4 < 5 →
      ∃ r, irqInfo cfg true body = .ok r ∧ r.length = 16 ∧ leAt r 0 4 = 16 ∧ leAt r 4 4 = 1 ∧
        leAt r 8 4 = leAt body 8 4 ∧ leAt r 12 4 = cfg.cnt (leAt body 8 4)) := by
  constructor
  · intro h
    unfold irqInfo
    by_cases h1 : body.length < 16 ∨ leAt body 0 4 < 16
    · rw [if_pos h1]
    · rw [if_neg h1]
      dsimp only
      rw [if_pos (by simp only [NUM_IRQS]; omega)]
  · intro h1 h2 h3
    refine ⟨enc 4 16 ++ enc 4 1 ++ enc 4 (leAt body 8 4) ++ enc 4 (cfg.cnt (leAt body 8 4)), ?_, ?_, ?_, ?_, ?_, ?_⟩
    · unfold irqInfo
      rw [if_neg (by omega)]
      dsimp only
      rw [if_neg (by simp only [NUM_IRQS]; omega), if_neg (by decide)]
    · simp [enc_length]
    · have := leAt_field [] (enc 4 1 ++ enc 4 (leAt body 8 4) ++ enc 4 (cfg.cnt (leAt body 8 4))) 4 16 0 rfl (by decide)
      simpa [List.append_assoc] using this
    · have := leAt_field (enc 4 16) (enc 4 (leAt body 8 4) ++ enc 4 (cfg.cnt (leAt body 8 4))) 4 1 4
        (enc_length ..) (by decide)
      simpa [List.append_assoc] using this
    · have := leAt_field (enc 4 16 ++ enc 4 1) (enc 4 (cfg.cnt (leAt body 8 4))) 4 (leAt body 8 4) 8
        (by simp [enc_length]) (by omega)
      simpa [List.append_assoc] using this
    · have := leAt_field (enc 4 16 ++ enc 4 1 ++ enc 4 (leAt body 8 4)) [] 4 (cfg.cnt (leAt body 8 4)) 12
        (by simp [enc_length]) (by have := hs (leAt body 8 4); simpa [U32] using this)
      simpa [List.append_assoc] using this

example : irqInfo cfg0 true (enc 4 16 ++ enc 4 0 ++ enc 4 2 ++ enc 4 0) =
    .ok (enc 4 16 ++ enc 4 1 ++ enc 4 2 ++ enc 4 8) := by decide +kernel

end Verif.Irq
