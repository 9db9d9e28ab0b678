import Verif.Mig.Lemmas
import Verif.Mig.Feature

/-! # Properties C20-C23 and C25: migration -/

namespace Verif.Mig
open Verif

/-! ## C20 -/

theorem set_stays (cb : Nat → Option Nat) (a : MSt) (t : Nat) :
    ∃ b : MSt, (setState cb a.num t).1 = b.num ∧
      ∃ (p : List MSt) (c : MSt), Path a p c ∧ (setState cb a.num t).2.2 = p.map told := by
  by_cases h8 : t = 8
  · subst h8
    rw [setState_eight]
    exact ⟨a, rfl, [], a, .nil a, rfl⟩
  · by_cases hb : ∃ b : MSt, t = b.num
    · obtain ⟨b, rfl⟩ := hb
      rw [setState_route]
      rcases hr : route a b with _ | p
      · exact ⟨a, rfl, [], a, .nil a, rfl⟩
      · have hp := route_path hr
        rcases walk_spec cb p 0 a b hp with ⟨h1, _⟩ | ⟨q, c, x, e, hq, hcx, _, _, _, hw⟩
        · simp only [h1]
          exact ⟨b, rfl, p, b, hp, rfl⟩
        · simp only [hw]
          exact ⟨c, rfl, q ++ [x], x, path_snoc hq hcx, rfl⟩
    · rw [setState_bad cb a t h8 (fun b h => hb ⟨b, h⟩)]
      exact ⟨a, rfl, [], a, .nil a, rfl⟩

theorem run_stays (ops : List Op) : ∀ a : MSt, ∃ b : MSt, run a.num ops = b.num := by
  induction ops with
  | nil => intro a; exact ⟨a, rfl⟩
  | cons op ops ih =>
    intro a
    cases op with
    | set cb t =>
      obtain ⟨b, hb, _⟩ := set_stays cb a t
      simp only [run, step, hb]
      exact ih b
    | reset cb =>
      rcases cb with _ | e
      · exact ih .running
      · exact ih a

/-- C20: after any history from RUNNING the state is a documented one, and whatever a further request
tells the device is a path of documented arcs from there. -/
theorem C20_arcs (ops : List Op) :
    ∃ a : MSt, run MSt.running.num ops = a.num ∧
      ∀ (cb : Nat → Option Nat) (t : Nat), ∃ (p : List MSt) (b : MSt), Path a p b ∧
        (step (run MSt.running.num ops) (.set cb t)).2.2 = p.map told := by
  obtain ⟨a, ha⟩ := run_stays ops .running
  refine ⟨a, ha, ?_⟩
  intro cb t
  obtain ⟨_, _, h⟩ := set_stays cb a t
  rw [ha]
  exact h

/-- A history with a failing callback in the middle of a route and a failed reset. -/
example : run MSt.running.num
    [.set (fun _ => none) 6, .set (fun k => if k = 1 then some EFAULT else none) 4, .reset (some EINVAL),
     .set (fun _ => none) 3] = 3 := by decide

/-! ## C21 -/

/-- C21: an accepted request with obedient callbacks follows a shortest documented path without
interior saving states, and ends in the requested state. -/
theorem C21_shortest (cb : Nat → Option Nat) (hcb : ∀ k, cb k = none) (a : MSt) (t : Nat)
    (h : (setState cb a.num t).2.1 = .ok ()) :
    ∃ (b : MSt) (p : List MSt), t = b.num ∧ Path a p b ∧
      setState cb a.num t = (b.num, .ok (), p.map told) ∧
      (∀ q, Path a q b → p.length ≤ q.length) ∧ (∀ x ∈ p.dropLast, x.saving = false) := by
  by_cases h8 : t = 8
  · subst h8; rw [setState_eight] at h; cases h
  · by_cases hb : ∃ b : MSt, t = b.num
    · obtain ⟨b, rfl⟩ := hb
      rw [setState_route] at h ⊢
      rcases hr : route a b with _ | p
      · rw [hr] at h; cases h
      · have hp := route_path hr
        rcases walk_spec cb p 0 a b hp with ⟨h1, _⟩ | ⟨q, c, x, e, _, _, _, _, he, _⟩
        · refine ⟨b, p, rfl, hp, h1, ?_, route_interior hr⟩
          intro q hq
          rw [route_len hr]
          exact dist_le hq
        · rw [hcb] at he; cases he
    · rw [setState_bad cb a t h8 (fun b h => hb ⟨b, h⟩)] at h; cases h

/-- C21: which requests are accepted. -/
theorem C21_accepted (cb : Nat → Option Nat) (hcb : ∀ k, cb k = none) (a b : MSt)
    (h : ¬ (a = .stopCopy ∧ b = .preCopy)) : (setState cb a.num b.num).2.1 = .ok () := by
  rw [setState_route]
  rcases hr : route a b with _ | p
  · cases a <;> cases b <;> simp [route] at hr h
  · have hp := route_path hr
    rcases walk_spec cb p 0 a b hp with ⟨h1, _⟩ | ⟨q, c, x, e, _, _, _, _, he, _⟩
    · simp only [h1]
    · rw [hcb] at he; cases he

/-- C21: a request ends, whatever the callbacks answer; its only fault is the one of C22. -/
theorem C21_terminates (cb : Nat → Option Nat) (a : MSt) (t : Nat) (f : Fault)
    (h : (setState cb a.num t).2.1 = .fault f) : t = 8 ∧ f = .oob := by
  by_cases h8 : t = 8
  · subst h8
    rw [setState_eight] at h
    injection h with h
    exact ⟨rfl, h.symm⟩
  · by_cases hb : ∃ b : MSt, t = b.num
    · obtain ⟨b, rfl⟩ := hb
      rw [setState_route] at h
      rcases hr : route a b with _ | p
      · rw [hr] at h; cases h
      · rw [hr] at h
        rcases walk_spec cb p 0 a b (route_path hr) with ⟨h1, _⟩ | ⟨q, c, x, e, _, _, _, _, _, hw⟩
        · simp only [h1] at h; cases h
        · simp only [hw] at h; cases h
    · rw [setState_bad cb a t h8 (fun b h => hb ⟨b, h⟩)] at h; cases h

/-- The longest route has three steps. -/
example : setState (fun _ => none) MSt.preCopy.num 4 = (4, .ok (), [.running, .stop, .resume]) := by decide

/-! ## C22 -/

/-- C22: a request either runs through, or is refused with `EINVAL` before any callback, or stops at the
first callback that fails: `q` are the acknowledged states, `x` the refused one. -/
theorem C22_last_acknowledged (cb : Nat → Option Nat) (a : MSt) (t : Nat) (h8 : t ≠ 8) :
    (∃ (b : MSt) (p : List MSt), t = b.num ∧ Path a p b ∧ (∀ i < p.length, cb i = none) ∧
      setState cb a.num t = (b.num, .ok (), p.map told)) ∨
    (((∀ b : MSt, t ≠ b.num) ∨ (a = .stopCopy ∧ t = MSt.preCopy.num)) ∧
      setState cb a.num t = (a.num, .err EINVAL, [])) ∨
    (∃ (q : List MSt) (c x : MSt) (e : Nat), Path a q c ∧ Arc c x ∧ (∀ i < q.length, cb i = none) ∧
      cb q.length = some e ∧ setState cb a.num t = (c.num, .err e, q.map told ++ [told x])) := by
  by_cases hb : ∃ b : MSt, t = b.num
  · obtain ⟨b, rfl⟩ := hb
    rw [setState_route]
    rcases hr : route a b with _ | p
    · refine .inr (.inl ⟨.inr ?_, rfl⟩)
      cases a <;> cases b <;> simp [route] at hr ⊢
    · have hp := route_path hr
      rcases walk_spec cb p 0 a b hp with ⟨h1, h2⟩ | ⟨q, c, x, e, hq, hcx, _, hn, he, hw⟩
      · refine .inl ⟨b, p, rfl, hp, ?_, h1⟩
        intro i hi
        have := h2 i hi
        rwa [Nat.zero_add] at this
      · refine .inr (.inr ⟨q, c, x, e, hq, hcx, ?_, ?_, ?_⟩)
        · intro i hi
          have := hn i hi
          rwa [Nat.zero_add] at this
        · rwa [Nat.zero_add] at he
        · simp only [hw, List.map_append, List.map_cons, List.map_nil]
  · exact .inr (.inl ⟨.inl (fun b h => hb ⟨b, h⟩), setState_bad cb a t h8 (fun b h => hb ⟨b, h⟩)⟩)

/-- C22: undocumented targets and STOP_COPY to PRE_COPY fail without a callback. -/
theorem C22_refused (cb : Nat → Option Nat) (a : MSt) (t : Nat) (h8 : t ≠ 8)
    (h : (∀ b : MSt, t ≠ b.num) ∨ (a = .stopCopy ∧ t = MSt.preCopy.num)) :
    setState cb a.num t = (a.num, .err EINVAL, []) := by
  rcases h with h | ⟨rfl, rfl⟩
  · exact setState_bad cb a t h8 h
  · exact setState_route cb .stopCopy .preCopy

/-- C22: the value 8 reads past the table, from every state. -/
theorem C22_violated (cb : Nat → Option Nat) (a : MSt) : (setState cb a.num 8).2.1 = .fault .oob := by
  rw [setState_eight]

/-- Third step of a route refused: the device stays in STOP. -/
example : setState (fun k => if k = 2 then some EFAULT else none) MSt.preCopy.num 4 =
    (1, .err EFAULT, [.running, .stop, .resume]) := by decide

/-! ## C23 -/

/-- When migration data may be read. -/
def ReadAllowed (mig : Option Nat) (clientMax : Nat) (body : List Byte) : Prop :=
  8 ≤ body.length ∧ (∃ a : MSt, a.saving = true ∧ mig = some a.num) ∧ leAt body 4 4 ≤ clientMax ∧
    8 + leAt body 4 4 ≤ leAt body 0 4

/-- When migration data may be written. -/
def WriteAllowed (mig : Option Nat) (clientMax : Nat) (body : List Byte) : Prop :=
  mig = some MSt.resuming.num ∧ leAt body 4 4 ≤ clientMax ∧
    8 + leAt body 4 4 ≤ leAt body 0 4 ∧ 8 + leAt body 4 4 ≤ body.length

theorem saving_num (s : Nat) : (∃ a : MSt, a.saving = true ∧ s = a.num) ↔ s = 6 ∨ s = 3 := by
  constructor
  · rintro ⟨a, ha, rfl⟩
    cases a <;> simp [MSt.saving, MSt.num] at ha ⊢
  · rintro (rfl | rfl)
    · exact ⟨.preCopy, rfl, rfl⟩
    · exact ⟨.stopCopy, rfl, rfl⟩

/-- C23: a permitted read calls the device once, with a buffer of at least the requested size. -/
theorem C23_read_call (cb : Nat → ReadCb) (mig : Option Nat) (clientMax : Nat) (body : List Byte)
    (h : ReadAllowed mig clientMax body) :
    ∃ room, leAt body 4 4 ≤ room ∧
      (dataRead true cb mig clientMax body).2 = [.read (leAt body 4 4) room] := by
  obtain ⟨hl, ⟨a, ha, rfl⟩, hm, hz⟩ := h
  have hs := (saving_num a.num).1 ⟨a, ha, rfl⟩
  refine ⟨body.length + leAt body 4 4 - 8, by omega, ?_⟩
  have h1 : ¬ (a.num ≠ PRE_COPY ∧ a.num ≠ STOP_COPY) := by
    simp only [PRE_COPY, STOP_COPY]; omega
  have h2 : ¬ body.length < 8 := by omega
  have h3 : ¬ leAt body 4 4 > clientMax := by omega
  have h4 : ¬ leAt body 0 4 < 8 + leAt body 4 4 := by omega
  unfold dataRead
  simp only [h1, h2, h3, h4, if_false, Bool.true_eq_false]
  cases cb (leAt body 4 4) <;> rfl

/-- C23: every other read fails with `EINVAL` and without a callback. -/
theorem C23_read_refused (alloc : Bool) (cb : Nat → ReadCb) (mig : Option Nat) (clientMax : Nat)
    (body : List Byte) (h : ¬ ReadAllowed mig clientMax body) :
    dataRead alloc cb mig clientMax body = (.err EINVAL, []) := by
  unfold dataRead
  by_cases h2 : body.length < 8
  · simp only [h2, if_true]
  rcases mig with _ | st
  · simp only [h2, if_false]
  by_cases h1 : st ≠ PRE_COPY ∧ st ≠ STOP_COPY
  · simp only [h2, if_false]
    rw [if_pos h1]
  simp only [h2, if_false]
  rw [if_neg h1]
  by_cases h3 : leAt body 4 4 > clientMax
  · simp only [h3, if_true]
  by_cases h4 : leAt body 0 4 < 8 + leAt body 4 4
  · simp only [h3, h4, if_true, if_false]
  exfalso
  apply h
  refine ⟨by omega, ?_, by omega, by omega⟩
  have : st = 6 ∨ st = 3 := by simp only [PRE_COPY, STOP_COPY] at h1; omega
  obtain ⟨a, ha, hn⟩ := (saving_num st).2 this
  exact ⟨a, ha, by rw [hn]⟩

/-- C23: the reply announces what the device returned and carries the bytes it produced. -/
theorem C23_read_reply (cb : Nat → ReadCb) (mig : Option Nat) (clientMax : Nat) (body : List Byte)
    (h : ReadAllowed mig clientMax body) (n : Nat) (data : List Byte)
    (hcb : cb (leAt body 4 4) = .ret n data) (hn : n ≤ leAt body 4 4) (hd : n ≤ data.length) :
    ∃ out, (dataRead true cb mig clientMax body).1 = .ok out ∧ leAt out 0 4 = 8 + n ∧ leAt out 4 4 = n ∧
      (out.drop 8).take n = data.take n ∧ out.length = body.length + leAt body 4 4 := by
  have hlt := leAt_lt body 4 0
  obtain ⟨hl, ⟨a, ha, rfl⟩, hm, hz⟩ := h
  have hs := (saving_num a.num).1 ⟨a, ha, rfl⟩
  have h1 : ¬ (a.num ≠ PRE_COPY ∧ a.num ≠ STOP_COPY) := by
    simp only [PRE_COPY, STOP_COPY]; omega
  have h2 : ¬ body.length < 8 := by omega
  have h3 : ¬ leAt body 4 4 > clientMax := by omega
  have h4 : ¬ leAt body 0 4 < 8 + leAt body 4 4 := by omega
  refine ⟨enc 4 (8 + n) ++ enc 4 n ++ fill (leAt body 4 4) data ++ List.replicate (body.length - 8) 0#8,
    ?_, ?_, ?_, ?_, ?_⟩
  · unfold dataRead
    simp only [h1, h2, h3, h4, if_false, Bool.true_eq_false, hcb]
  · have := leAt_field [] (enc 4 n ++ fill (leAt body 4 4) data ++ List.replicate (body.length - 8) 0#8)
      4 (8 + n) 0 rfl (by omega)
    simpa [List.append_assoc] using this
  · have := leAt_field (enc 4 (8 + n)) (fill (leAt body 4 4) data ++ List.replicate (body.length - 8) 0#8)
      4 n 4 (enc_length _ _) (by omega)
    simpa [List.append_assoc] using this
  · have hlen : (enc 4 (8 + n) ++ enc 4 n).length = 8 := by simp [enc_length]
    rw [List.append_assoc, List.drop_append_of_le_length (by omega), List.drop_of_length_le (by omega),
      List.nil_append, fill]
    rw [List.take_append_of_le_length (by simp; omega), List.take_take, Nat.min_eq_left hn,
      List.take_append_of_le_length hd]
  · have : (fill (leAt body 4 4) data).length = leAt body 4 4 := by simp [fill]
    simp only [List.length_append, enc_length, this, List.length_replicate]
    omega

/-- C23: a permitted write shows the device exactly the bytes after the header. -/
theorem C23_write_call (cb : List Byte → Except Nat Nat) (mig : Option Nat) (clientMax : Nat)
    (body : List Byte) (h : WriteAllowed mig clientMax body) :
    ∃ data, data.length = leAt body 4 4 ∧ data = (body.drop 8).take (leAt body 4 4) ∧
      (dataWrite cb mig clientMax body).2 = [.write data] ∧
      ((dataWrite cb mig clientMax body).1 = .ok [] ↔ cb data = .ok (leAt body 4 4)) := by
  obtain ⟨rfl, hm, hz, hb⟩ := h
  refine ⟨_, by simp; omega, rfl, ?_⟩
  have h2 : ¬ body.length < 8 := by omega
  have h3 : ¬ leAt body 4 4 > clientMax := by omega
  have h4 : ¬ leAt body 0 4 < 8 + leAt body 4 4 := by omega
  have h5 : ¬ body.length < 8 + leAt body 4 4 := by omega
  have h1 : ¬ (MSt.resuming.num ≠ RESUMING) := by decide
  unfold dataWrite
  simp only [h1, h2, h3, h4, h5, if_false]
  rcases cb ((body.drop 8).take (leAt body 4 4)) with e | n
  · simp
  · by_cases hn : n = leAt body 4 4 <;> simp [hn]

/-- C23: every other write fails with `EINVAL` and without a callback. -/
theorem C23_write_refused (cb : List Byte → Except Nat Nat) (mig : Option Nat) (clientMax : Nat)
    (body : List Byte) (h : ¬ WriteAllowed mig clientMax body) :
    dataWrite cb mig clientMax body = (.err EINVAL, []) := by
  unfold dataWrite
  by_cases h2 : body.length < 8
  · simp only [h2, if_true]
  rcases mig with _ | st
  · simp only [h2, if_false]
  by_cases h1 : st ≠ RESUMING
  · simp only [h2, if_false]
    rw [if_pos h1]
  simp only [h2, if_false]
  rw [if_neg h1]
  by_cases h3 : leAt body 4 4 > clientMax
  · simp only [h3, if_true]
  by_cases h4 : leAt body 0 4 < 8 + leAt body 4 4
  · simp only [h3, h4, if_true, if_false]
  by_cases h5 : body.length < 8 + leAt body 4 4
  · simp only [h3, h4, h5, if_true, if_false]
  exfalso
  apply h
  refine ⟨?_, by omega, by omega, by omega⟩
  have : st = 4 := by simp only [RESUMING] at h1; omega
  rw [this]; rfl

/-- Two bytes read in PRE_COPY, of which the device has one. -/
example : dataRead true (fun _ => .ret 1 [0xab#8, 0#8]) (some MSt.preCopy.num) 4096 (enc 4 10 ++ enc 4 2) =
    (.ok (enc 4 9 ++ enc 4 1 ++ [0xab#8, 0#8]), [.read 2 2]) := by decide

example : ReadAllowed (some MSt.preCopy.num) 4096 (enc 4 10 ++ enc 4 2) :=
  ⟨by decide, ⟨.preCopy, rfl, rfl⟩, by decide, by decide⟩

example : WriteAllowed (some MSt.resuming.num) 4096 (enc 4 10 ++ enc 4 2 ++ [1#8, 2#8]) :=
  ⟨rfl, by decide, by decide, by decide⟩

/-! ## C25 -/

/-- `flags` of a request that reads, sets or probes a feature. -/
def getFlags (feature : Nat) : Nat := 0x10000 + feature
def setFlags (feature : Nat) : Nat := 0x20000 + feature

theorem feature_get (env : FEnv) (st : FSt) (m : Nat) (body : List Byte) (hm : st.mig = some m)
    (hl : 8 ≤ body.length) (hf : leAt body 4 4 = getFlags 2) :
    handleFeature env st body = (st, migGet env.alloc m (leAt body 0 4) (getFlags 2), []) := by
  have h2 : ¬ body.length < 8 := by omega
  have hs : supported (some m) (getFlags 2 % 65536) = 0x70000 := rfl
  simp only [handleFeature, h2, if_false, hf, hm, hs]
  rfl

theorem feature_set (env : FEnv) (st : FSt) (m : Nat) (body : List Byte) (hm : st.mig = some m)
    (hl : 8 ≤ body.length) (hf : leAt body 4 4 = setFlags 2) :
    handleFeature env st body = featSet env st m 2 (leAt body 0 4) body := by
  have h2 : ¬ body.length < 8 := by omega
  have hs : supported (some m) (setFlags 2 % 65536) = 0x70000 := rfl
  simp only [handleFeature, h2, if_false, hf, hm, hs]
  rfl

/-- C25: the answer to a state query (`argsz` at least 16) is the state. -/
theorem C25_get (env : FEnv) (st : FSt) (m : Nat) (body : List Byte) (hm : st.mig = some m) (hb : m < 2 ^ 32)
    (hl : 8 ≤ body.length) (hf : leAt body 4 4 = getFlags 2) (hz : 16 ≤ leAt body 0 4)
    (ha : env.alloc = true) :
    ∃ out, handleFeature env st body = (st, .ok out, []) ∧ out.length = 16 ∧ leAt out 0 4 = 16 ∧
      leAt out 4 4 = getFlags 2 ∧ leAt out 8 4 = m := by
  have h4 : ¬ leAt body 0 4 < 16 := by omega
  refine ⟨enc 4 16 ++ enc 4 (getFlags 2) ++ enc 4 m ++ enc 4 0, ?_, ?_, ?_, ?_, ?_⟩
  · rw [feature_get env st m body hm hl hf]
    simp only [migGet, h4, if_false, ha, Bool.true_eq_false]
    rfl
  · simp [enc_length]
  · have := leAt_field [] (enc 4 (getFlags 2) ++ enc 4 m ++ enc 4 0) 4 16 0 rfl (by decide)
    simpa [List.append_assoc] using this
  · have := leAt_field (enc 4 16) (enc 4 m ++ enc 4 0) 4 (getFlags 2) 4 (enc_length _ _) (by decide)
    simpa [List.append_assoc] using this
  · have := leAt_field (enc 4 16 ++ enc 4 (getFlags 2)) (enc 4 0) 4 m 8 (by simp [enc_length])
      (by simpa using hb)
    simpa [List.append_assoc] using this

/-- C25: after an accepted state change a query returns the state that was asked for, whatever
happened before. -/
theorem C25_roundtrip (ops : List Op) (dma : Option Dma.Ctl) (env env' : FEnv) (set get : List Byte)
    (out : List Byte) (st : FSt) (tr : List Vfu)
    (hl : 8 ≤ set.length) (hf : leAt set 4 4 = setFlags 2)
    (hset : handleFeature env { mig := some (run MSt.running.num ops), dma } set = (st, .ok out, tr))
    (hl' : 8 ≤ get.length) (hf' : leAt get 4 4 = getFlags 2) (hz' : 16 ≤ leAt get 0 4)
    (ha' : env'.alloc = true) :
    ∃ out', handleFeature env' st get = (st, .ok out', []) ∧ leAt out' 8 4 = leAt set 8 4 := by
  obtain ⟨a, ha⟩ := run_stays ops .running
  rw [ha] at hset
  rw [feature_set env _ a.num set rfl hl hf] at hset
  unfold featSet at hset
  by_cases h1 : leAt set 0 4 < set.length
  · simp only [h1, if_true] at hset; cases hset
  by_cases h2 : env.alloc = false
  · simp only [h1, h2, if_true, if_false] at hset; cases hset
  rw [if_neg h1, if_neg h2, if_pos (by decide)] at hset
  simp only [migSet, ne_eq, show (2 : Nat) = FEAT_STATE from rfl, not_true_eq_false, if_false] at hset
  unfold rd at hset
  by_cases h3 : 8 + 4 ≤ set.length
  · simp only [if_pos h3] at hset
    obtain ⟨b, hb, _⟩ := set_stays env.cb a (leAt set 8 4)
    have hok : (setState env.cb a.num (leAt set 8 4)).2.1 = .ok () := by
      rcases hr : (setState env.cb a.num (leAt set 8 4)).2.1 with u | e | f
      · rfl
      · rw [hr] at hset; cases hset
      · rw [hr] at hset; cases hset
    have hst : (setState env.cb a.num (leAt set 8 4)).1 = leAt set 8 4 := by
      by_cases h8 : leAt set 8 4 = 8
      · rw [h8, setState_eight] at hok; cases hok
      rcases C22_last_acknowledged env.cb a _ h8 with ⟨b, p, ht, _, _, he⟩ | ⟨_, he⟩ | ⟨q, c, x, e, _, _, _, _, he⟩
      · rw [he]; exact ht.symm
      · rw [he] at hok; cases hok
      · rw [he] at hok; cases hok
    have hst2 : st.mig = some (leAt set 8 4) := by
      have := congrArg (fun x => x.1.mig) hset
      simp only [hst] at this
      exact this.symm
    obtain ⟨out', h4, _, _, _, h5⟩ := C25_get env' st _ get hst2 (leAt_lt set 4 8) hl' hf' hz' ha'
    exact ⟨out', h4, h5⟩
  · simp only [if_neg h3, Res.map] at hset; cases hset

/-- C25: after a successful device reset the state is RUNNING; after a failed one it is unchanged. -/
theorem C25_reset (cb : Option Nat) (st : Nat) :
    (reset cb st = (MSt.running.num, .ok ()) ∧ cb = none) ∨ (∃ e, cb = some e ∧ reset cb st = (st, .err e)) := by
  rcases cb with _ | e
  · exact .inl ⟨rfl, rfl⟩
  · exact .inr ⟨e, rfl, rfl⟩

theorem dmaGet_mig (env : FEnv) (st : FSt) (m feature argsz flags : Nat) (body : List Byte) :
    (featGet env st m feature argsz flags body).1.mig = st.mig ∧
      (featGet env st m feature argsz flags body).2.2 = [] := by
  unfold featGet
  split
  · exact ⟨rfl, rfl⟩
  · split <;> exact ⟨rfl, rfl⟩

/-- The cases of a feature request. -/
theorem feature_cases (env : FEnv) (st : FSt) (body : List Byte) :
    handleFeature env st body = (st, .err EINVAL, []) ∨
    ∃ m, st.mig = some m ∧
      let flags := leAt body 4 4
      let ops := flags - flags % 65536
      flags &&& supported (some m) (flags % 65536) = ops ∧
      ((ops = F_GET ∧
          handleFeature env st body = featGet env st m (flags % 65536) (leAt body 0 4) flags body) ∨
       (ops = F_SET ∧ handleFeature env st body = featSet env st m (flags % 65536) (leAt body 0 4) body) ∨
       (ops ≠ F_GET ∧ ops ≠ F_SET ∧
          handleFeature env st body = (st, featProbe env ops (leAt body 0 4) body, []))) := by
  unfold handleFeature
  by_cases h1 : body.length < 8
  · left; rw [if_pos h1]
  rw [if_neg h1]
  dsimp only
  by_cases h2 : leAt body 4 4 &&& supported st.mig (leAt body 4 4 % 65536) ≠
      leAt body 4 4 - leAt body 4 4 % 65536 ∨ supported st.mig (leAt body 4 4 % 65536) = 0
  · left; rw [if_pos h2]
  rw [if_neg h2]
  rcases hm : st.mig with _ | m
  · left; rfl
  right
  refine ⟨m, rfl, ?_⟩
  rw [hm] at h2
  refine ⟨by_contra fun h => h2 (.inl h), ?_⟩
  by_cases hg : leAt body 4 4 - leAt body 4 4 % 65536 = F_GET
  · exact .inl ⟨hg, by simp only [if_pos hg]⟩
  · by_cases hs : leAt body 4 4 - leAt body 4 4 % 65536 = F_SET
    · exact .inr (.inl ⟨hs, by simp only [if_neg hg, if_pos hs]⟩)
    · exact .inr (.inr ⟨hg, hs, by simp only [if_neg hg, if_neg hs]⟩)

/-- C25: only a SET of the state feature can change the migration state or call the device; a request
with the PROBE flag changes nothing at all. -/
theorem C25_only_set (env : FEnv) (st : FSt) (body : List Byte) (h : leAt body 4 4 ≠ setFlags 2) :
    (handleFeature env st body).1.mig = st.mig ∧ (handleFeature env st body).2.2 = [] := by
  rcases feature_cases env st body with he | ⟨m, hm, hsup, ⟨_, he⟩ | ⟨hops, he⟩ | ⟨_, _, he⟩⟩
  · rw [he]; exact ⟨rfl, rfl⟩
  · rw [he]; exact dmaGet_mig ..
  · rw [he]
    have hlt := leAt_lt body 4 4
    have h2 : leAt body 4 4 % 65536 ≠ 2 := by
      intro h2
      apply h
      simp only [F_SET] at hops
      simp only [setFlags]
      omega
    have h1 : leAt body 4 4 % 65536 ≠ 1 := by
      intro h1
      have h3 : leAt body 4 4 = 0x20001 := by simp only [F_SET] at hops; omega
      simp only [h3] at hsup
      revert hsup
      simp +decide [supported]
    have h3 : isMigFeature (leAt body 4 4 % 65536) = false := by
      simp [isMigFeature, FEAT_MIGRATION, FEAT_STATE, h1, h2]
    unfold featSet
    rw [h3]
    split
    · exact ⟨rfl, rfl⟩
    · split
      · exact ⟨rfl, rfl⟩
      · simp only [Bool.false_eq_true, if_false]
        split <;> exact ⟨rfl, rfl⟩
  · rw [he]; exact ⟨rfl, rfl⟩

/-- C25: a request with the PROBE flag changes nothing, and is answered by its own copy or an error. -/
theorem C25_probe (env : FEnv) (st : FSt) (body : List Byte) (h : (leAt body 4 4).testBit 18 = true) :
    ∃ r, handleFeature env st body = (st, r, []) ∧
      (r = .ok body ∨ r = .err EINVAL ∨ (env.alloc = false ∧ r = .err ENOMEM)) := by
  have hne : ∀ x, leAt body 4 4 - leAt body 4 4 % 65536 = x → x.testBit 18 = true := by
    intro x hx
    rw [← hx]
    rw [show leAt body 4 4 - leAt body 4 4 % 65536 = (leAt body 4 4 / 2 ^ 16) * 2 ^ 16 by omega,
      Nat.testBit_mul_two_pow, Nat.testBit_div_two_pow]
    simpa using h
  rcases feature_cases env st body with he | ⟨m, hm, hsup, ⟨hops, he⟩ | ⟨hops, he⟩ | ⟨_, _, he⟩⟩
  · exact ⟨_, he, .inr (.inl rfl)⟩
  · exact absurd (hne _ hops) (by decide)
  · exact absurd (hne _ hops) (by decide)
  · refine ⟨_, he, ?_⟩
    unfold featProbe
    split
    · exact .inr (.inl rfl)
    · split
      · exact .inr (.inl rfl)
      · split
        · rename_i ha
          exact .inr (.inr ⟨ha, rfl⟩)
        · exact .inl rfl

/-- A device in PRE_COPY is moved to RESUMING and reports it. -/
example :
    let env : FEnv := { cb := fun _ => none, alloc := true, ca := fun _ => true, hint := 0 }
    let s0 : FSt := { mig := some (run 2 [.set (fun _ => none) 6]), dma := none }
    let set := enc 4 16 ++ enc 4 (setFlags 2) ++ enc 4 4 ++ enc 4 0
    let r := handleFeature env s0 set
    r.1.mig = some 4 ∧ r.2.1 = .ok set ∧
      (handleFeature env r.1 (enc 4 16 ++ enc 4 (getFlags 2))).2.1 =
        .ok (enc 4 16 ++ enc 4 (getFlags 2) ++ enc 4 4 ++ enc 4 0) := by decide

end Verif.Mig
