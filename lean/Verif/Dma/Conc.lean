import Verif.Dma.Props5

/-!
# C13: marking and querying concurrently

Any number of threads run `_dma_mark_dirty` and `dirty_page_get_same_pgsize` on one region's bitmap.  A
step is one access to one byte of the bitmap: the atomic OR of `lib/dma.h:201`, the plain load of
`lib/dma.c:546`, the atomic exchange of `lib/dma.c:550`.  All are sequentially consistent; the load is a
single byte.  The schedule is an arbitrary list of events.
-/

namespace Verif.Dma.Conc
open Verif Verif.Dma

/-- A thread with its program counter. -/
inductive Thr where
  /-- `lib/dma.h:188-202`: pages `[pgs, pge)`, next byte `i`, `n` bytes to go -/
  | mark (pgs pge i n : Nat)
  /-- `lib/dma.c:555-562`: `n` bytes to go, the next one is number `out.length`; `seen` says that the load of
  line 546 returned a non-zero byte and the exchange comes next; `out` is what was stored so far -/
  | query (n : Nat) (seen : Bool) (out : List Byte)
  deriving DecidableEq, Repr

def Thr.finished : Thr → Prop
  | .mark _ _ _ n => n = 0
  | .query n _ _ => n = 0

/-- The bitmap and all threads ever started. -/
structure St where
  mem : List Byte
  thr : List Thr
  deriving DecidableEq, Repr

inductive Ev where
  | startMark (pgs pge : Nat)
  | startQuery
  | tick (tid : Nat)
  deriving DecidableEq, Repr

/-- One atomic access by one thread; nothing happens if it has finished. -/
def tickThr (mem : List Byte) : Thr → Res (List Byte × Thr)
  | .mark pgs pge i 0 => .ok (mem, .mark pgs pge i 0)
  | .mark pgs pge i (n + 1) =>
    match mem[i]? with
    | none => .fault .oob
    | some b => .ok (mem.set i (b ||| markMask pgs pge i), .mark pgs pge (i + 1) n)
  | .query 0 s out => .ok (mem, .query 0 s out)
  | .query (n + 1) false out =>
    match mem[out.length]? with
    | none => .fault .oob
    | some b =>
      if b = 0#8 then .ok (mem, .query n false (out ++ [0#8])) else .ok (mem, .query (n + 1) true out)
  | .query (n + 1) true out =>
    match mem[out.length]? with
    | none => .fault .oob
    | some b => .ok (mem.set out.length 0#8, .query n false (out ++ [b]))

def step (s : St) : Ev → Res St
  | .startMark pgs pge =>
    .ok { s with thr := s.thr ++ [.mark pgs pge (markIndex pgs) (markEnd pge - markIndex pgs)] }
  | .startQuery => .ok { s with thr := s.thr ++ [.query s.mem.length false []] }
  | .tick k =>
    match s.thr[k]? with
    | none => .ok s
    | some t =>
      match tickThr s.mem t with
      | .ok (mem, t') => .ok { mem := mem, thr := s.thr.set k t' }
      | .err e => .err e
      | .fault f => .fault f

def run : St → List Ev → Res St
  | s, [] => .ok s
  | s, e :: es =>
    match step s e with
    | .ok s' => run s' es
    | .err e => .err e
    | .fault f => .fault f

/-! ## The threads alone do what the sequential model says -/

/-- Let thread `k` run alone for `n` steps. -/
def solo (mem : List Byte) (t : Thr) : Nat → Res (List Byte × Thr)
  | 0 => .ok (mem, t)
  | n + 1 =>
    match tickThr mem t with
    | .ok (m, t') => solo m t' n
    | .err e => .err e
    | .fault f => .fault f

/-- A marker that is not interrupted is `markLoop`. -/
theorem solo_mark (pgs pge : Nat) : ∀ (n i : Nat) (mem : List Byte),
    (solo mem (.mark pgs pge i n) n) =
      match markLoop pgs pge n i mem with
      | .ok m => .ok (m, .mark pgs pge (i + n) 0)
      | .err e => .err e
      | .fault f => .fault f := by
  intro n
  induction n with
  | zero => intro i mem; rfl
  | succ n ih =>
    intro i mem
    simp only [solo, tickThr, markLoop]
    cases h : mem[i]? with
    | none => rfl
    | some b =>
      simp only
      rw [ih, show i + 1 + n = i + (n + 1) by omega]

/-- A query that is not interrupted is `getSame`. -/
theorem solo_query : ∀ (n : Nat) (mem out rest : List Byte), out.length + n = mem.length → rest.length = n →
    ∃ k m res, solo mem (.query n false out) k = .ok (m, .query 0 false res) ∧
      getSame n out.length mem (out ++ rest) = .ok (m, res) := by
  intro n
  induction n with
  | zero =>
    intro mem out rest h1 h2
    have : rest = [] := List.length_eq_zero_iff.mp h2
    subst this
    exact ⟨0, mem, out, rfl, by simp [getSame]⟩
  | succ n ih =>
    intro mem out rest h1 h2
    match rest, h2 with
    | x :: rest, h2 =>
      have hi : out.length < mem.length := by omega
      have hset : ∀ y, (out ++ x :: rest).set out.length y = (out ++ [y]) ++ rest := by
        intro y; simp
      have hget : (out ++ x :: rest)[out.length]? = some x := by simp
      by_cases h0 : mem[out.length] = 0#8
      · obtain ⟨k, m, res, e1, e2⟩ := ih mem (out ++ [0#8]) rest (by simp; omega) (by simpa using h2)
        have hms : mem.set out.length 0#8 = mem := by rw [← h0]; exact List.set_getElem_self hi
        refine ⟨k + 1, m, res, ?_, ?_⟩
        · simp only [solo, tickThr, List.getElem?_eq_getElem hi, h0, if_true]
          exact e1
        · simp only [getSame, List.getElem?_eq_getElem hi, hget, exchange, h0, if_true]
          rw [hset, hms]
          simpa using e2
      · obtain ⟨k, m, res, e1, e2⟩ := ih (mem.set out.length 0#8) (out ++ [mem[out.length]]) rest
          (by simp; omega) (by simpa using h2)
        refine ⟨k + 2, m, res, ?_, ?_⟩
        · simp only [solo, tickThr, List.getElem?_eq_getElem hi, h0, if_false]
          exact e1
        · simp only [getSame, List.getElem?_eq_getElem hi, hget, exchange, h0, if_false]
          rw [hset]
          simpa using e2

/-! ## Facts about single steps -/

theorem bit_append (out : List Byte) (b : Byte) (p : Nat) :
    bit (out ++ [b]) p = if p / 8 = out.length then b.getLsbD (p % 8) else bit out p := by
  unfold bit
  rw [List.getD_eq_getElem?_getD, List.getD_eq_getElem?_getD]
  by_cases h : p / 8 = out.length
  · rw [if_pos h, h]; simp
  · rw [if_neg h]
    by_cases h2 : p / 8 < out.length
    · rw [List.getElem?_append_left h2]
    · rw [List.getElem?_eq_none (by simp; omega), List.getElem?_eq_none (by omega)]

/-- Program counters stay in range. -/
def Thr.WF (len : Nat) : Thr → Prop
  | .mark pgs pge i n => markIndex pgs ≤ i ∧ (i + n = markEnd pge ∨ (n = 0 ∧ markEnd pge ≤ i))
  | .query n seen out => out.length + n = len ∧ (seen = true → n ≠ 0)

def WF (s : St) : Prop := ∀ t ∈ s.thr, t.WF s.mem.length

/-- What a step of a thread can do. -/
inductive TickCase (mem : List Byte) : Thr → List Byte → Thr → Prop where
  | idle (t : Thr) : t.finished → TickCase mem t mem t
  | or (pgs pge i n : Nat) (b : Byte) : mem[i]? = some b →
      TickCase mem (.mark pgs pge i (n + 1)) (mem.set i (b ||| markMask pgs pge i)) (.mark pgs pge (i + 1) n)
  | zero (n : Nat) (out : List Byte) : mem[out.length]? = some 0#8 →
      TickCase mem (.query (n + 1) false out) mem (.query n false (out ++ [0#8]))
  | seen (n : Nat) (out : List Byte) : TickCase mem (.query (n + 1) false out) mem (.query (n + 1) true out)
  | xchg (n : Nat) (out : List Byte) (b : Byte) : mem[out.length]? = some b →
      TickCase mem (.query (n + 1) true out) (mem.set out.length 0#8) (.query n false (out ++ [b]))

theorem tick_case {mem : List Byte} {t : Thr} {m : List Byte} {t' : Thr} (h : tickThr mem t = .ok (m, t')) :
    TickCase mem t m t' := by
  cases t with
  | mark pgs pge i n =>
    cases n with
    | zero => simp only [tickThr] at h; cases h; exact .idle _ rfl
    | succ n =>
      simp only [tickThr] at h
      cases hb : mem[i]? with
      | none => rw [hb] at h; cases h
      | some b => rw [hb] at h; cases h; exact .or _ _ _ _ _ hb
  | query n s out =>
    cases n with
    | zero => simp only [tickThr] at h; cases h; exact .idle _ rfl
    | succ n =>
      cases s with
      | false =>
        simp only [tickThr] at h
        cases hb : mem[out.length]? with
        | none => rw [hb] at h; cases h
        | some b =>
          rw [hb] at h
          simp only at h
          split at h
          · rename_i h0; subst h0; cases h; exact .zero _ _ hb
          · cases h; exact .seen _ _
      | true =>
        simp only [tickThr] at h
        cases hb : mem[out.length]? with
        | none => rw [hb] at h; cases h
        | some b => rw [hb] at h; cases h; exact .xchg _ _ _ hb

theorem tick_len {mem m : List Byte} {t t' : Thr} (h : TickCase mem t m t') : m.length = mem.length := by
  cases h <;> simp

theorem tick_wf {mem m : List Byte} {t t' : Thr} (h : TickCase mem t m t') (hw : t.WF mem.length) :
    t'.WF mem.length := by
  cases h with
  | idle => exact hw
  | or pgs pge i n b hb => simp only [Thr.WF] at *; omega
  | zero n out h0 => simp only [Thr.WF, List.length_append, List.length_cons, List.length_nil] at *; simp; omega
  | seen n out => simp only [Thr.WF] at *; simp; omega
  | xchg n out b hb => simp only [Thr.WF, List.length_append, List.length_cons, List.length_nil] at *; simp; omega

/-- What a step of the system can do. -/
inductive StepCase (s : St) : St → Prop where
  | spawn (t : Thr) : t.WF s.mem.length →
      ((∃ pgs pge, t = .mark pgs pge (markIndex pgs) (markEnd pge - markIndex pgs)) ∨ t = .query s.mem.length false []) →
      StepCase s { s with thr := s.thr ++ [t] }
  | same : StepCase s s
  | tick (k : Nat) (t : Thr) (m : List Byte) (t' : Thr) : s.thr[k]? = some t → TickCase s.mem t m t' →
      StepCase s { mem := m, thr := s.thr.set k t' }

theorem step_case {s s' : St} {e : Ev} (h : step s e = .ok s') : StepCase s s' := by
  cases e with
  | startMark pgs pge =>
    simp only [step] at h; cases h
    refine .spawn _ ?_ (.inl ⟨_, _, rfl⟩)
    simp only [Thr.WF]; omega
  | startQuery => simp only [step] at h; cases h; exact .spawn _ (by simp [Thr.WF]) (.inr rfl)
  | tick k =>
    simp only [step] at h
    split at h
    · cases h; exact .same
    · rename_i t ht
      split at h
      · rename_i m t' hm; cases h; exact .tick k t m t' ht (tick_case hm)
      · cases h
      · cases h

theorem step_wf {s s' : St} (h : StepCase s s') (hw : WF s) : WF s' ∧ s'.mem.length = s.mem.length := by
  cases h with
  | spawn t ht _ =>
    refine ⟨fun x hx => ?_, rfl⟩
    rcases List.mem_append.mp hx with hx | hx
    · exact hw x hx
    · rw [List.mem_singleton] at hx; rw [hx]; exact ht
  | same => exact ⟨hw, rfl⟩
  | tick k t m t' hk hc =>
    have hl := tick_len hc
    refine ⟨fun x hx => ?_, hl⟩
    simp only [hl] at *
    rcases List.mem_or_eq_of_mem_set hx with hx | rfl
    · exact hw x hx
    · exact tick_wf hc (hw t (List.mem_of_getElem? hk))

theorem run_append (s : St) (a b : List Ev) : run s (a ++ b) =
    match run s a with
    | .ok s' => run s' b
    | .err e => .err e
    | .fault f => .fault f := by
  induction a generalizing s with
  | nil => rfl
  | cons e a ih =>
    simp only [List.cons_append, run]
    cases step s e with
    | ok s' => exact ih s'
    | err e => rfl
    | fault f => rfl

/-- Invariant rule for runs. -/
theorem run_inv {P : St → Prop} (hs : ∀ s s', StepCase s s' → P s → P s') : ∀ (evs : List Ev) (s s' : St),
    run s evs = .ok s' → P s → P s' := by
  intro evs
  induction evs with
  | nil => intro s s' h hp; simp only [run] at h; cases h; exact hp
  | cons e evs ih =>
    intro s s' h hp
    simp only [run] at h
    cases hx : step s e with
    | ok s1 => rw [hx] at h; exact ih _ _ h (hs _ _ (step_case hx) hp)
    | err e => rw [hx] at h; cases h
    | fault f => rw [hx] at h; cases h

/-- No page range outside the bitmap is marked. -/
def InRange (len : Nat) : Ev → Prop
  | .startMark _ pge => pge ≤ 8 * len
  | _ => True

/-- With ranges inside the bitmap there is no access outside it, under any schedule. -/
theorem C13_inbounds (len : Nat) (evs : List Ev) (h : ∀ e ∈ evs, InRange len e) (mem : List Byte) (hm : mem.length = len) :
    ∃ s, run ⟨mem, []⟩ evs = .ok s := by
  have key : ∀ (evs : List Ev) (s : St), (∀ e ∈ evs, InRange len e) → WF s → s.mem.length = len →
      (∀ pgs pge i n, .mark pgs pge i n ∈ s.thr → pge ≤ 8 * len) → ∃ s', run s evs = .ok s' := by
    intro evs
    induction evs with
    | nil => intro s _ _ _ _; exact ⟨s, rfl⟩
    | cons e evs ih =>
      intro s he hw hl hr
      simp only [List.mem_cons, forall_eq_or_imp] at he
      have hok : ∃ s1, step s e = .ok s1 := by
        cases e with
        | startMark pgs pge => exact ⟨_, rfl⟩
        | startQuery => exact ⟨_, rfl⟩
        | tick k =>
          simp only [step]
          cases hk : s.thr[k]? with
          | none => exact ⟨_, rfl⟩
          | some t =>
            have hmem := List.mem_of_getElem? hk
            have hwt := hw t hmem
            have : ∃ v, tickThr s.mem t = .ok v := by
              cases t with
              | mark pgs pge i n =>
                cases n with
                | zero => exact ⟨_, rfl⟩
                | succ n =>
                  have h1 := hr _ _ _ _ hmem
                  simp only [Thr.WF, markEnd] at hwt
                  have hi : i < s.mem.length := by split at hwt <;> omega
                  simp only [tickThr, List.getElem?_eq_getElem hi]
                  exact ⟨_, rfl⟩
              | query n sn out =>
                cases n with
                | zero => exact ⟨_, rfl⟩
                | succ n =>
                  simp only [Thr.WF] at hwt
                  have hi : out.length < s.mem.length := by omega
                  cases sn with
                  | false =>
                    simp only [tickThr, List.getElem?_eq_getElem hi]
                    split <;> exact ⟨_, rfl⟩
                  | true =>
                    simp only [tickThr, List.getElem?_eq_getElem hi]
                    exact ⟨_, rfl⟩
            obtain ⟨⟨m, t'⟩, hv⟩ := this
            exact ⟨⟨m, s.thr.set k t'⟩, by simp only [hv]⟩
      obtain ⟨s1, h1⟩ := hok
      have hc := step_case h1
      have hw1 := step_wf hc hw
      obtain ⟨s2, h2⟩ := ih s1 he.2 hw1.1 (by omega) (by
        intro pgs pge i n hm
        cases e with
        | startMark a b =>
          simp only [step] at h1
          cases h1
          rcases List.mem_append.mp hm with hm | hm
          · exact hr _ _ _ _ hm
          · simp only [List.mem_singleton, Thr.mark.injEq] at hm
            have := he.1
            simp only [InRange] at this
            omega
        | startQuery =>
          simp only [step] at h1
          cases h1
          rcases List.mem_append.mp hm with hm | hm
          · exact hr _ _ _ _ hm
          · simp at hm
        | tick k =>
          simp only [step] at h1
          split at h1
          · cases h1; exact hr _ _ _ _ hm
          · rename_i t ht
            split at h1
            · rename_i m t' hv
              cases h1
              rcases List.mem_or_eq_of_mem_set hm with hm | rfl
              · exact hr _ _ _ _ hm
              · have := tick_case hv
                have htm := List.mem_of_getElem? ht
                generalize hg : Thr.mark pgs pge i n = g at this
                cases this with
                | idle _ hf => subst hg; exact hr _ _ _ _ htm
                | or a b c d _ _ =>
                  cases hg
                  exact hr _ _ _ _ htm
                | zero => cases hg
                | seen => cases hg
                | xchg => cases hg
            · cases h1
            · cases h1)
      exact ⟨s2, by simp only [run, h1, h2]⟩
  exact key evs ⟨mem, []⟩ h (by intro t ht; simp at ht) hm (by intro _ _ _ _ h; simp at h)

/-! ## No page is lost -/

/-- Page `p` is still dirty, or in the result of a query that had not ended in state `s0`. -/
def Kept (s0 s : St) (p : Nat) : Prop :=
  bit s.mem p = true ∨
  ∃ (q n : Nat) (sn : Bool) (out : List Byte), s.thr[q]? = some (Thr.query n sn out) ∧ bit out p = true ∧ ∀ t : Thr, s0.thr[q]? = some t → ¬ t.finished

/-- Threads that had ended in `s0` are as they were. -/
def Frozen (s0 s : St) : Prop := ∀ (q : Nat) (t : Thr), s0.thr[q]? = some t → t.finished → s.thr[q]? = some t

theorem frozen_step {s0 s s' : St} (hf : Frozen s0 s) (h : StepCase s s') : Frozen s0 s' := by
  intro q t h1 h2
  have h3 := hf q t h1 h2
  cases h with
  | spawn x _ _ =>
    simp only
    rw [List.getElem?_append_left (List.getElem?_eq_some_iff.mp h3).1]; exact h3
  | same => exact h3
  | tick k x m x' hk hc =>
    simp only [List.getElem?_set]
    by_cases hkq : k = q
    · subst hkq
      rw [h3] at hk; cases hk
      have : x' = t := by
        cases hc with
        | idle => rfl
        | or => simp [Thr.finished] at h2
        | zero => simp [Thr.finished] at h2
        | seen => simp [Thr.finished] at h2
        | xchg => simp [Thr.finished] at h2
      rw [if_pos rfl, if_pos (List.getElem?_eq_some_iff.mp h3).1, this]
    · rw [if_neg hkq]; exact h3

theorem kept_step {s0 s s' : St} {p : Nat} (hf : Frozen s0 s) (hk : Kept s0 s p) (h : StepCase s s') :
    Kept s0 s' p := by
  cases h with
  | spawn x _ _ =>
    rcases hk with hb | ⟨q, n, sn, out, h1, h2, h3⟩
    · exact .inl hb
    · refine .inr ⟨q, n, sn, out, ?_, h2, h3⟩
      simp only
      rw [List.getElem?_append_left (List.getElem?_eq_some_iff.mp h1).1]; exact h1
  | same => exact hk
  | tick k x m x' hx hc =>
    have hklt := (List.getElem?_eq_some_iff.mp hx).1
    rcases hk with hb | ⟨q, n, sn, out, h1, h2, h3⟩
    · cases hc with
      | idle => exact .inl hb
      | or pgs pge i n b hbi =>
        refine .inl ?_
        simp only
        rw [bit_set (List.getElem?_eq_some_iff.mp hbi).1]
        split
        · rename_i hpi
          rw [bit_getElem? hbi hpi] at hb
          simp [hb]
        · exact hb
      | zero => exact .inl hb
      | seen => exact .inl hb
      | xchg n out b hbi =>
        by_cases hpi : p / 8 = out.length
        · refine .inr ⟨k, n, false, out ++ [b], by simp [hklt], ?_, ?_⟩
          · rw [bit_append, if_pos hpi, ← bit_getElem? hbi hpi]; exact hb
          · intro t ht hfin
            have := hf k t ht hfin
            rw [hx] at this
            cases this
            simp [Thr.finished] at hfin
        · refine .inl ?_
          simp only
          rw [bit_set (List.getElem?_eq_some_iff.mp hbi).1, if_neg hpi]
          exact hb
    · by_cases hkq : k = q
      · subst hkq
        rw [hx] at h1; cases h1
        cases hc with
        | idle => exact .inr ⟨k, n, sn, out, by simp [hklt], h2, h3⟩
        | zero n' =>
          refine .inr ⟨k, n', false, _, by simp [hklt]; rfl, ?_, h3⟩
          rw [bit_append]
          split
          · rename_i hpi
            rw [bit_ge (by omega)] at h2; cases h2
          · exact h2
        | seen n' => exact .inr ⟨k, n' + 1, true, out, by simp [hklt], h2, h3⟩
        | xchg n' _ b hbi =>
          refine .inr ⟨k, n', false, _, by simp [hklt]; rfl, ?_, h3⟩
          rw [bit_append]
          split
          · rename_i hpi
            rw [bit_ge (by omega)] at h2; cases h2
          · exact h2
      · exact .inr ⟨q, n, sn, out, by simp only [List.getElem?_set, if_neg hkq]; exact h1, h2, h3⟩

/-- C13, nothing is lost: whatever the schedule, once a mark of `[pgs, pge)` has ended, each of its pages is dirty
or contained in the result of a query that had not ended when the mark began. -/
theorem C13_no_loss (mem : List Byte) (a b : List Ev) (pgs pge : Nat) (s0 s : St)
    (h0 : run ⟨mem, []⟩ a = .ok s0) (h : run ⟨mem, []⟩ (a ++ .startMark pgs pge :: b) = .ok s)
    (i : Nat) (hend : s.thr[s0.thr.length]? = some (.mark pgs pge i 0)) (p : Nat) (h1 : pgs ≤ p) (h2 : p < pge) :
    bit s.mem p = true ∨
    ∃ (q n : Nat) (sn : Bool) (out : List Byte), s.thr[q]? = some (Thr.query n sn out) ∧ bit out p = true ∧ ∀ t : Thr, s0.thr[q]? = some t → ¬ t.finished := by
  rw [run_append, h0] at h
  simp only [run, step] at h
  have hwf0 : WF s0 := by
    refine run_inv (P := WF) (fun s s' hc hp => (step_wf hc hp).1) a ⟨mem, []⟩ s0 h0 ?_
    intro t ht; simp at ht
  have key := run_inv (P := fun s => Frozen s0 s ∧ WF s ∧ ∃ (i n : Nat), s.thr[s0.thr.length]? = some (Thr.mark pgs pge i n) ∧
      ∀ p, pgs ≤ p → p < pge → markIndex pgs ≤ p / 8 → p / 8 < i → Kept s0 s p) ?_ b _ s h ?_
  · obtain ⟨_, hw, i', n', e1, e2⟩ := key
    rw [hend] at e1
    cases e1
    have hwt := hw _ (List.mem_of_getElem? hend)
    simp only [Thr.WF, markIndex, markEnd] at hwt
    refine e2 p h1 h2 (by simp only [markIndex]; omega) ?_
    split at hwt <;> omega
  · rintro s s' hc ⟨hf, hw, i, n, e1, e2⟩
    refine ⟨frozen_step hf hc, (step_wf hc hw).1, ?_⟩
    have keep := fun p hp => kept_step (p := p) hf hp hc
    cases hc with
    | spawn x _ _ =>
      refine ⟨i, n, ?_, fun p a1 a2 a3 a4 => keep p (e2 p a1 a2 a3 a4)⟩
      simp only
      rw [List.getElem?_append_left (List.getElem?_eq_some_iff.mp e1).1]; exact e1
    | same => exact ⟨i, n, e1, e2⟩
    | tick k x m x' hx hc =>
      by_cases hk : k = s0.thr.length
      · subst hk
        have hlt := (List.getElem?_eq_some_iff.mp e1).1
        rw [e1] at hx; cases hx
        cases hc with
        | idle => exact ⟨i, n, by simp [hlt], fun p a1 a2 a3 a4 => keep p (e2 p a1 a2 a3 a4)⟩
        | or _ _ _ n b hbi =>
          refine ⟨i + 1, n, by simp [hlt], fun p a1 a2 a3 a4 => ?_⟩
          by_cases hpi : p / 8 = i
          · refine .inl ?_
            have hwt := hw _ (List.mem_of_getElem? e1)
            simp only [Thr.WF] at hwt
            simp only
            rw [bit_set (List.getElem?_eq_some_iff.mp hbi).1, if_pos hpi]
            have hm := markMask_bit pgs pge i (p % 8) (Nat.mod_lt _ (by decide)) hwt.1 (by omega)
            rw [decide_eq_true (by omega)] at hm
            simp [hm]
          · exact keep p (e2 p a1 a2 a3 (by omega))
      · refine ⟨i, n, by simp only [List.getElem?_set, if_neg hk]; exact e1, fun p a1 a2 a3 a4 => keep p (e2 p a1 a2 a3 a4)⟩
  · refine ⟨?_, ?_, markIndex pgs, markEnd pge - markIndex pgs, by simp, fun p _ _ a3 a4 => by omega⟩
    · intro q t e1 e2
      simp only
      rw [List.getElem?_append_left (List.getElem?_eq_some_iff.mp e1).1]; exact e1
    · exact (step_wf (StepCase.spawn _ (by simp only [Thr.WF]; omega) (.inl ⟨_, _, rfl⟩)) hwf0).1

/-! ## No page is invented -/

/-- Page `p` was dirty at the beginning, or some mark has got past it. -/
def Marked (mem : List Byte) (s : St) (p : Nat) : Prop :=
  bit mem p = true ∨ ∃ (k pgs pge i n : Nat), s.thr[k]? = some (Thr.mark pgs pge i n) ∧ pgs ≤ p ∧ p < pge ∧ p / 8 < i

theorem marked_step {mem : List Byte} {s s' : St} {p : Nat} (hm : Marked mem s p) (h : StepCase s s') : Marked mem s' p := by
  rcases hm with hb | ⟨k, pgs, pge, i, n, e1, e2, e3, e4⟩
  · exact .inl hb
  · have hlt := (List.getElem?_eq_some_iff.mp e1).1
    cases h with
    | spawn x _ _ => exact .inr ⟨k, pgs, pge, i, n, by simp only [List.getElem?_append_left hlt]; exact e1, e2, e3, e4⟩
    | same => exact .inr ⟨k, pgs, pge, i, n, e1, e2, e3, e4⟩
    | tick j x m x' hx hc =>
      by_cases hj : j = k
      · subst hj
        rw [e1] at hx; cases hx
        cases hc with
        | idle => exact .inr ⟨j, pgs, pge, i, n, by simp [hlt], e2, e3, e4⟩
        | or _ _ _ n' => exact .inr ⟨j, pgs, pge, i + 1, n', by simp [hlt], e2, e3, by omega⟩
      · exact .inr ⟨k, pgs, pge, i, n, by simp only [List.getElem?_set, if_neg hj]; exact e1, e2, e3, e4⟩

/-- C13, nothing is invented: under every schedule, each dirty page and each page in the (partial or complete)
result of a query was dirty initially or has been marked. -/
theorem C13_no_invention (mem : List Byte) (evs : List Ev) (s : St) (h : run ⟨mem, []⟩ evs = .ok s) (p : Nat)
    (hp : bit s.mem p = true ∨ ∃ (q n : Nat) (sn : Bool) (out : List Byte), s.thr[q]? = some (Thr.query n sn out) ∧ bit out p = true) :
    bit mem p = true ∨ ∃ (k pgs pge i n : Nat), s.thr[k]? = some (Thr.mark pgs pge i n) ∧ pgs ≤ p ∧ p < pge ∧ p / 8 < i := by
  have key := run_inv (P := fun s => WF s ∧ ∀ p, (bit s.mem p = true ∨
      ∃ (q n : Nat) (sn : Bool) (out : List Byte), s.thr[q]? = some (Thr.query n sn out) ∧ bit out p = true) → Marked mem s p) ?_ evs ⟨mem, []⟩ s h ?_
  · exact key.2 p hp
  · rintro s s' hc ⟨hw, hi⟩
    refine ⟨(step_wf hc hw).1, fun p hp => ?_⟩
    have ms := fun h => marked_step (mem := mem) (p := p) h hc
    cases hc with
    | spawn x _ hx =>
      apply ms
      apply hi
      rcases hp with hb | ⟨q, n, sn, out, e1, e2⟩
      · exact .inl hb
      · refine .inr ⟨q, n, sn, out, ?_, e2⟩
        simp only at e1
        by_cases hq : q < s.thr.length
        · rw [List.getElem?_append_left hq] at e1; exact e1
        · rw [List.getElem?_append_right (by omega)] at e1
          have hq0 : q - s.thr.length = 0 := by
            have := (List.getElem?_eq_some_iff.mp e1).1
            simp at this; omega
          rw [hq0] at e1
          simp only [List.getElem?_cons_zero, Option.some.injEq] at e1
          rcases hx with ⟨_, _, rfl⟩ | rfl
          · cases e1
          · cases e1; rw [bit_ge (by simp)] at e2; cases e2
    | same => exact hi p hp
    | tick k x m x' hx hc =>
      have hklt := (List.getElem?_eq_some_iff.mp hx).1
      rcases hp with hb | ⟨q, n, sn, out, e1, e2⟩
      · simp only at hb
        cases hc with
        | idle => exact ms (hi p (.inl hb))
        | or pgs pge i n b hbi =>
          rw [bit_set (List.getElem?_eq_some_iff.mp hbi).1] at hb
          split at hb
          · rename_i hpi
            rw [BitVec.getLsbD_or, Bool.or_eq_true] at hb
            rcases hb with hb | hb
            · exact ms (hi p (.inl (by rw [bit_getElem? hbi hpi]; exact hb)))
            · have hwt := hw _ (List.mem_of_getElem? hx)
              simp only [Thr.WF] at hwt
              rw [markMask_bit pgs pge i (p % 8) (Nat.mod_lt _ (by decide)) hwt.1 (by omega)] at hb
              have := of_decide_eq_true hb
              exact .inr ⟨k, pgs, pge, i + 1, n, by simp [hklt], by omega, by omega, by omega⟩
          · exact ms (hi p (.inl hb))
        | zero => exact ms (hi p (.inl hb))
        | seen => exact ms (hi p (.inl hb))
        | xchg n out b hbi =>
          rw [bit_set (List.getElem?_eq_some_iff.mp hbi).1] at hb
          split at hb
          · simp at hb
          · exact ms (hi p (.inl hb))
      · simp only [List.getElem?_set] at e1
        by_cases hkq : k = q
        · subst hkq
          rw [if_pos rfl, if_pos hklt] at e1
          cases e1
          generalize hg : Thr.query n sn out = g at hc
          cases hc with
          | idle => subst hg; exact ms (hi p (.inr ⟨k, n, sn, out, hx, e2⟩))
          | or => cases hg
          | zero n' out' h0 =>
            cases hg
            rw [bit_append] at e2
            split at e2
            · simp at e2
            · exact ms (hi p (.inr ⟨k, _, _, _, hx, e2⟩))
          | seen n' out' => cases hg; exact ms (hi p (.inr ⟨k, _, _, _, hx, e2⟩))
          | xchg n' out' b hbi =>
            cases hg
            rw [bit_append] at e2
            split at e2
            · rename_i hpi
              exact ms (hi p (.inl (by rw [bit_getElem? hbi hpi]; exact e2)))
            · exact ms (hi p (.inr ⟨k, _, _, _, hx, e2⟩))
        · rw [if_neg hkq] at e1
          exact ms (hi p (.inr ⟨q, n, sn, out, e1, e2⟩))
  · refine ⟨by intro t ht; simp at ht, fun p hp => ?_⟩
    rcases hp with hb | ⟨q, n, sn, out, e1, _⟩
    · exact .inl hb
    · simp at e1

/-- Two queries and two overlapping marks, interleaved: the second mark hits byte 0 between load and exchange of the
first query, page 9 goes to the second query. -/
example : run ⟨[0#8, 0#8], []⟩
    [.startMark 2 10, .startQuery, .tick 0, .tick 1, .startMark 4 6, .tick 2, .tick 1, .startQuery, .tick 1,
     .tick 0, .tick 3, .tick 3, .tick 3] =
    .ok ⟨[0#8, 0#8], [.mark 2 10 2 0, .query 0 false [0xfc#8, 0#8], .mark 4 6 1 0, .query 0 false [0#8, 3#8]]⟩ := by
  decide

end Verif.Dma.Conc
