import Verif.Irq.Model
import Mathlib.Tactic.SplitIfs
import Mathlib.Tactic.ByContra

namespace Verif.Irq
open Verif

/-! ## Places -/

theorem get_put_self {st : Irqs} {s : Slot} {v w : Option Fd} (h : st.get s = some w) : (st.put s v).get s = some v := by
  cases s with
  | err => rfl
  | req => rfl
  | vec i =>
    simp only [Irqs.get] at h
    have hi : i < st.efds.length := by
      by_contra hc
      rw [List.getElem?_eq_none (by omega)] at h
      cases h
    simp [Irqs.get, Irqs.put, hi]

theorem get_put_ne {st : Irqs} {s t : Slot} {v : Option Fd} (h : s ≠ t) : (st.put s v).get t = st.get t := by
  cases s <;> cases t <;> simp_all [Irqs.get, Irqs.put]

theorem put_length (st : Irqs) (s : Slot) (v : Option Fd) : (st.put s v).efds.length = st.efds.length := by
  cases s <;> simp [Irqs.put]

theorem get_isSome_put (st : Irqs) (s t : Slot) (v : Option Fd) : ((st.put s v).get t).isSome = (st.get t).isSome := by
  cases s <;> cases t <;> simp [Irqs.get, Irqs.put, Option.isSome]
  all_goals (try (split <;> split <;> simp_all [List.getElem?_set]))
  all_goals (try (split at * <;> simp_all))
  all_goals (rename_i h; split at h <;> simp_all)

/-- The descriptor at a place, if any. -/
def Irqs.at_ (st : Irqs) (s : Slot) : Option Fd := (st.get s).join

theorem closeSlot_spec {st : Irqs} {s : Slot} (h : (st.get s).isSome) :
    ∃ st' , closeSlot st s = .ok (st', (st.at_ s).toList.map Ev.close) ∧ st'.get s = some none ∧
      (∀ t, t ≠ s → st'.get t = st.get t) ∧ st'.efds.length = st.efds.length := by
  rcases hg : st.get s with _ | v
  · rw [hg] at h; cases h
  · rcases v with _ | fd
    · exact ⟨st, by simp [closeSlot, hg, Irqs.at_], hg, fun _ _ => rfl, rfl⟩
    · refine ⟨st.put s none, by simp [closeSlot, hg, Irqs.at_], get_put_self hg, ?_, put_length _ _ _⟩
      intro t ht
      exact get_put_ne (Ne.symm ht)

/-! ## Configuration -/

/-- Sizes a device may configure: at most one ERR and one REQ vector, counts below `2^32 - 1`. -/
structure Cfg.Ok (cfg : Cfg) : Prop where
  small : ∀ i, cfg.cnt i < U32 - 1
  err : cfg.cnt ERR ≤ 1
  req : cfg.cnt REQ ≤ 1

theorem cnt_le_max (cfg : Cfg) {i : Nat} (h : i < NUM_IRQS) : cfg.cnt i ≤ maxIvs cfg := by
  simp only [NUM_IRQS] at h
  have hr : List.range NUM_IRQS = [0, 1, 2, 3, 4] := by decide
  simp only [maxIvs, hr, List.foldl_cons, List.foldl_nil]
  have : i = 0 ∨ i = 1 ∨ i = 2 ∨ i = 3 ∨ i = 4 := by omega
  rcases this with rfl | rfl | rfl | rfl | rfl <;> split_ifs <;> omega

/-! ## Validation -/

/-- Which requests are accepted. -/
structure ReqOk (cfg : Cfg) (body : List Byte) (nfds : Nat) : Prop where
  len : 20 ≤ body.length
  argsz : 20 ≤ (Req.ofBytes body).argsz
  index : (Req.ofBytes body).index < 5
  action : (Req.ofBytes body).action ∈ [8, 16, 32]
  data : (Req.ofBytes body).data ∈ [1, 2, 4]
  start : (Req.ofBytes body).start < cfg.cnt (Req.ofBytes body).index
  range : (Req.ofBytes body).start + (Req.ofBytes body).count ≤ cfg.cnt (Req.ofBytes body).index
  special : (Req.ofBytes body).index = 3 ∨ (Req.ofBytes body).index = 4 →
    (Req.ofBytes body).action = 32 ∧ (Req.ofBytes body).count ≤ 1
  zero : (Req.ofBytes body).count = 0 →
    (Req.ofBytes body).start = 0 ∧ (Req.ofBytes body).action = 32 ∧ (Req.ofBytes body).data = 1
  bools : (Req.ofBytes body).data = 2 → body.length = 20 + (Req.ofBytes body).count
  fds : nfds ≠ 0 → (Req.ofBytes body).data = 4 ∧ nfds = (Req.ofBytes body).count

theorem satadd_le {a b c : Nat} (hc : c < U32 - 1) (ha : a < U32) (hb : b < U32) :
    satadd32 a b ≤ c ↔ a + b ≤ c := by
  have he : add32 a b = (a + b) % 4294967296 := rfl
  have hu : U32 - 1 = 4294967295 := rfl
  have hu2 : U32 = 4294967296 := rfl
  unfold satadd32
  dsimp only
  by_cases h : add32 a b < a
  · rw [if_pos h]; omega
  · rw [if_neg h]; omega

theorem ite_ok {c : Prop} [Decidable c] {e : Nat} {x : Res Unit} (hc : ¬ c) (h : x = .ok ()) :
    (if c then Res.err e else x) = .ok () := by rw [if_neg hc, h]

theorem ite_err {c : Prop} [Decidable c] {e : Nat} {x : Res Unit} (h : (if c then Res.err e else x) = .ok ()) :
    ¬ c ∧ x = .ok () := by
  by_cases hc : c
  · rw [if_pos hc] at h; cases h
  · rw [if_neg hc] at h; exact ⟨hc, h⟩

theorem ite_err' {c : Prop} [Decidable c] {e : Nat} {x : Res Unit} {e' : Nat}
    (h : (if c then Res.err e else x) = .err e') : e = e' ∨ x = .err e' := by
  by_cases hc : c
  · rw [if_pos hc] at h; injection h with h; exact .inl h
  · rw [if_neg hc] at h; exact .inr h

theorem ite_err'' {c : Prop} [Decidable c] {e : Nat} {x : Res Unit} {f : Fault}
    (h : (if c then Res.err e else x) = .fault f) : x = .fault f := by
  by_cases hc : c
  · rw [if_pos hc] at h; cases h
  · rw [if_neg hc] at h; exact h

theorem validate_ok {cfg : Cfg} (hc : ∀ i, cfg.cnt i < U32 - 1) (body : List Byte) (nfds : Nat) :
    validate cfg body nfds = .ok () ↔ ReqOk cfg body nfds := by
  have hs := leAt_lt body 4 12
  have hn := leAt_lt body 4 16
  have hsat : satadd32 (Req.ofBytes body).start (Req.ofBytes body).count ≤ cfg.cnt (Req.ofBytes body).index ↔
      (Req.ofBytes body).start + (Req.ofBytes body).count ≤ cfg.cnt (Req.ofBytes body).index :=
    satadd_le (hc _) (by simpa [Req.ofBytes, U32] using hs) (by simpa [Req.ofBytes, U32] using hn)
  constructor
  · intro h
    unfold validate at h
    dsimp only at h
    simp only [NUM_IRQS, ERR, REQ, DATA_NONE, DATA_BOOL, DATA_EVENTFD, ACT_MASK, ACT_UNMASK, ACT_TRIGGER] at h
    by_cases h0 : body = []
    · rw [if_pos h0] at h; cases h
    rw [if_neg h0] at h
    obtain ⟨h1, h⟩ := ite_err h
    obtain ⟨h2, h⟩ := ite_err h
    obtain ⟨h3, h⟩ := ite_err h
    obtain ⟨h4, h⟩ := ite_err h
    obtain ⟨h5, h⟩ := ite_err h
    obtain ⟨h6, h⟩ := ite_err h
    obtain ⟨h7, h⟩ := ite_err h
    obtain ⟨h8, h⟩ := ite_err h
    obtain ⟨h9, h⟩ := ite_err h
    obtain ⟨h10, h⟩ := ite_err h
    obtain ⟨h11, h⟩ := ite_err h
    obtain ⟨h12, h⟩ := ite_err h
    obtain ⟨h13, _⟩ := ite_err h
    have hr := hsat.1 (by omega)
    have ha : (Req.ofBytes body).argsz = leAt body 0 4 := rfl
    refine ⟨by omega, by omega, by omega, ?_, ?_, by omega, hr, ?_, ?_, ?_, ?_⟩
    · simp; omega
    · simp; omega
    · intro hx
      exact ⟨by_contra fun hy => h8 ⟨hx, hy⟩, by_contra fun hy => h9 ⟨hx, by omega⟩⟩
    · intro hx
      refine ⟨by omega, ?_, ?_⟩ <;> omega
    · intro hx
      omega
    · intro hx
      omega
  · rintro ⟨hlen, hargsz, hindex, haction, hdata, hstart, hrange, hspecial, hzero, hbools, hfds⟩
    have hr := hsat.2 hrange
    have ha : (Req.ofBytes body).argsz = leAt body 0 4 := rfl
    simp only [List.mem_cons, List.not_mem_nil, or_false] at haction hdata
    unfold validate
    dsimp only
    simp only [NUM_IRQS, ERR, REQ, DATA_NONE, DATA_BOOL, DATA_EVENTFD, ACT_MASK, ACT_UNMASK, ACT_TRIGGER]
    have h0 : body ≠ [] := by rintro rfl; simp at hlen
    rw [if_neg h0]
    refine ite_ok (by omega) ?_
    refine ite_ok (by omega) ?_
    refine ite_ok (by omega) ?_
    refine ite_ok (by omega) ?_
    refine ite_ok (by omega) ?_
    refine ite_ok (by omega) ?_
    refine ite_ok (by omega) ?_
    refine ite_ok (fun hx => hx.2 (hspecial hx.1).1) ?_
    refine ite_ok (fun hx => by have := (hspecial hx.1).2; omega) ?_
    refine ite_ok (fun hx => hx.2 (hzero hx.1).1) ?_
    refine ite_ok (fun hx => by have := hzero hx.1; omega) ?_
    refine ite_ok (fun hx => hx.2 (hfds hx.1).1) ?_
    exact ite_ok (fun hx => hx.2 (hfds hx.1).2) rfl

theorem validate_bad {cfg : Cfg} (hc : ∀ i, cfg.cnt i < U32 - 1) {body : List Byte} {nfds : Nat} (h0 : body ≠ [])
    (h : ¬ ReqOk cfg body nfds) : validate cfg body nfds = .err EINVAL := by
  rcases hv : validate cfg body nfds with u | e | f
  · exact absurd ((validate_ok hc body nfds).1 (by rw [hv])) h
  · unfold validate at hv
    dsimp only at hv
    rw [if_neg h0] at hv
    repeat first
      | (rcases ite_err' hv with rfl | hv; · rfl)
      | (cases hv)
  · unfold validate at hv
    dsimp only at hv
    rw [if_neg h0] at hv
    repeat first
      | (replace hv := ite_err'' hv)
      | (cases hv)

/-! ## Loops -/

/-- Descriptors at a list of places, in order. -/
def Irqs.bound (st : Irqs) (ss : List Slot) : List Fd := ss.filterMap st.at_

theorem bound_congr {st st' : Irqs} {ss : List Slot} (h : ∀ s ∈ ss, st'.get s = st.get s) :
    st'.bound ss = st.bound ss := by
  induction ss with
  | nil => rfl
  | cons s ss ih =>
    have h1 : st'.at_ s = st.at_ s := by simp only [Irqs.at_, h s (List.mem_cons_self ..)]
    have h2 := ih (fun t ht => h t (List.mem_cons_of_mem _ ht))
    simp only [Irqs.bound, List.filterMap_cons, h1] at h2 ⊢
    rw [h2]

/-- Outcome of closing a list of distinct places. -/
structure Cleared (st st' : Irqs) (ss : List Slot) : Prop where
  len : st'.efds.length = st.efds.length
  gone : ∀ s ∈ ss, st'.get s = some none
  same : ∀ s, s ∉ ss → st'.get s = st.get s

theorem cleared_step {st st1 st2 : Irqs} {s : Slot} {ss : List Slot}
    (h1 : st1.get s = some none) (h2 : ∀ t, t ≠ s → st1.get t = st.get t)
    (h3 : st1.efds.length = st.efds.length) (h : Cleared st1 st2 ss) : Cleared st st2 (s :: ss) := by
  refine ⟨h.len.trans h3, ?_, ?_⟩
  · intro t ht
    rcases List.mem_cons.1 ht with rfl | ht
    · by_cases hm : t ∈ ss
      · exact h.gone t hm
      · rw [h.same t hm]; exact h1
    · exact h.gone t ht
  · intro t ht
    rw [List.mem_cons, not_or] at ht
    rw [h.same t ht.2, h2 t ht.1]

/-- The places a disable visits. -/
def disSlots (index n i : Nat) : List Slot := (List.range' i n).map (efdSlot index)

theorem disSlots_succ (index n i : Nat) : disSlots index (n + 1) i = efdSlot index i :: disSlots index n (i + 1) := by
  simp [disSlots, List.range'_succ]

theorem slot_nodup_notin {index n i : Nat} (hn : (disSlots index (n + 1) i).Nodup) :
    efdSlot index i ∉ disSlots index n (i + 1) := by
  rw [disSlots_succ] at hn
  exact (List.nodup_cons.1 hn).1

theorem disableLoop_spec (index : Nat) (n : Nat) : ∀ (i : Nat) (st : Irqs),
    (∀ j, i ≤ j → j < i + n → disableSlot index j = some (efdSlot index j)) →
    (disSlots index n i).Nodup → (∀ s ∈ disSlots index n i, (st.get s).isSome) →
    ∃ st', disableLoop index n i st = .ok (st', (st.bound (disSlots index n i)).map Ev.close) ∧
      Cleared st st' (disSlots index n i) := by
  induction n with
  | zero => intro i st _ _ _; exact ⟨st, rfl, rfl, by simp [disSlots], fun _ _ => rfl⟩
  | succ n ih =>
    intro i st hd hnd hs
    have hslot := hd i (Nat.le_refl _) (by omega)
    rw [disSlots_succ] at hs
    obtain ⟨st1, hc, hg, hsame, hlen⟩ := closeSlot_spec (hs _ (List.mem_cons_self ..))
    have hni := slot_nodup_notin hnd
    have hsame' : ∀ s ∈ disSlots index n (i + 1), st1.get s = st.get s := by
      intro s hm
      apply hsame
      rintro rfl
      exact hni hm
    obtain ⟨st2, hl, hcl⟩ := ih (i + 1) st1 (fun j h1 h2 => hd j (by omega) (by omega))
      (by rw [disSlots_succ] at hnd; exact (List.nodup_cons.1 hnd).2)
      (fun s hm => by rw [hsame' s hm]; exact hs s (List.mem_cons_of_mem _ hm))
    refine ⟨st2, ?_, ?_⟩
    · simp only [disableLoop, hslot, hc, hl]
      rw [bound_congr hsame', disSlots_succ]
      simp only [Irqs.bound, List.filterMap_cons]
      rcases st.at_ (efdSlot index i) with _ | fd <;> rfl
    · rw [disSlots_succ]
      exact cleared_step hg hsame hlen hcl

theorem resetLoop_spec (n : Nat) : ∀ (i : Nat) (st : Irqs), i + n ≤ st.efds.length →
    ∃ st', resetLoop n i st = .ok (st', (st.bound ((List.range' i n).map Slot.vec)).map Ev.close) ∧
      Cleared st st' ((List.range' i n).map Slot.vec) := by
  induction n with
  | zero => intro i st _; exact ⟨st, rfl, rfl, by simp, fun _ _ => rfl⟩
  | succ n ih =>
    intro i st h
    have hi : (st.get (.vec i)).isSome := by simp only [Irqs.get]; rw [List.getElem?_eq_getElem (by omega)]; rfl
    obtain ⟨st1, hc, hg, hsame, hlen⟩ := closeSlot_spec hi
    have hsame' : ∀ s ∈ (List.range' (i + 1) n).map Slot.vec, st1.get s = st.get s := by
      intro s hm
      apply hsame
      rintro rfl
      obtain ⟨j, hj, he⟩ := List.mem_map.1 hm
      injection he with he
      rw [List.mem_range'_1] at hj
      omega
    obtain ⟨st2, hl, hcl⟩ := ih (i + 1) st1 (by omega)
    refine ⟨st2, ?_, ?_⟩
    · simp only [resetLoop, hc, hl]
      rw [bound_congr hsame', List.range'_succ, List.map_cons]
      simp only [Irqs.bound, List.filterMap_cons]
      rcases st.at_ (Slot.vec i) with _ | fd <;> rfl
    · rw [List.range'_succ, List.map_cons]
      exact cleared_step hg hsame hlen hcl

/-- Outcome of binding: place `i + k` gets the `k`-th of the new descriptors. -/
theorem bindLoop_spec (index count : Nat) (n : Nat) : ∀ (i j : Nat) (st : Irqs) (fds : List (Option Fd)) (new : List Fd),
    new.length = n → j + n ≤ count → fds.drop j = new.map some → (disSlots index n i).Nodup →
    (∀ s ∈ disSlots index n i, (st.get s).isSome) →
    ∃ st', bindLoop index count n i j st fds =
        .ok (st', fds.take j ++ List.replicate n none, (st.bound (disSlots index n i)).map Ev.close) ∧
      st'.efds.length = st.efds.length ∧
      (∀ k (hk : k < new.length), st'.get (efdSlot index (i + k)) = some (some new[k])) ∧
      (∀ s, s ∉ disSlots index n i → st'.get s = st.get s) := by
  induction n with
  | zero =>
    intro i j st fds new hl _ hf _ _
    have hnew : new = [] := List.length_eq_zero_iff.1 hl
    subst hnew
    refine ⟨st, ?_, rfl, by simp, fun _ _ => rfl⟩
    have : fds.take j = fds := by
      exact List.take_of_length_le (List.drop_eq_nil_iff.1 (by simpa using hf))
    simp [bindLoop, disSlots, Irqs.bound, this]
  | succ n ih =>
    intro i j st fds new hl hj hf hnd hs
    rcases new with _ | ⟨f, new⟩
    · simp at hl
    have hjl : j < fds.length := by
      by_contra hc
      rw [List.drop_of_length_le (by omega)] at hf
      cases hf
    have hd : fds.drop j = fds[j] :: fds.drop (j + 1) := List.drop_eq_getElem_cons hjl
    rw [hd, List.map_cons] at hf
    injection hf with hf1 hf2
    rw [disSlots_succ] at hs
    obtain ⟨st1, hc, hg, hsame, hlen⟩ := closeSlot_spec (hs _ (List.mem_cons_self ..))
    have hni := slot_nodup_notin hnd
    have hsame' : ∀ s, s ≠ efdSlot index i → (st1.put (efdSlot index i) (some f)).get s = st.get s := by
      intro s hne
      rw [get_put_ne (Ne.symm hne), hsame s hne]
    have hfj : fds[j]? = some (some f) := by rw [List.getElem?_eq_getElem hjl, hf1]
    obtain ⟨st2, hb, hlen2, hk2, hs2⟩ := ih (i + 1) (j + 1) (st1.put (efdSlot index i) (some f)) (fds.set j none) new
      (by simpa using hl) (by omega) (by rw [List.drop_set_of_lt (by omega)]; exact hf2)
      (by rw [disSlots_succ] at hnd; exact (List.nodup_cons.1 hnd).2)
      (fun s hm => by
        rw [hsame' s (by rintro rfl; exact hni hm)]
        exact hs s (List.mem_cons_of_mem _ hm))
    refine ⟨st2, ?_, ?_, ?_, ?_⟩
    · have hjc : j < count := by omega
      simp only [bindLoop, hc, hfj, if_pos hjc, hb]
      congr 2
      have htk : (fds.set j none).take (j + 1) ++ List.replicate n none = fds.take j ++ List.replicate (n + 1) none := by
        rw [List.take_set, List.take_add_one, List.getElem?_eq_getElem hjl, List.replicate_succ]
        rw [Option.toList_some, List.set_append_right _ _ (by simp; omega)]
        simp [Nat.min_eq_left (Nat.le_of_lt hjl)]
      rw [htk]
      congr 1
      rw [bound_congr (st := st) (fun s hm => hsame' s (by rintro rfl; exact hni hm)), disSlots_succ]
      simp only [Irqs.bound, List.filterMap_cons]
      rcases st.at_ (efdSlot index i) with _ | fd <;> rfl
    · rw [hlen2, put_length, hlen]
    · intro k hk
      rcases k with _ | k
      · rw [Nat.add_zero, hs2 _ hni, get_put_self hg]
        rfl
      · have := hk2 k (by simpa using hk)
        rw [show i + (k + 1) = i + 1 + k by omega, this]
        rfl
    · intro s hm
      rw [disSlots_succ, List.mem_cons, not_or] at hm
      rw [hs2 s hm.2, hsame' s hm.1]

/-- Descriptors at the selected places, in order. -/
def selected (st : Irqs) (index : Nat) : List Bool → Nat → List Fd
  | [], _ => []
  | b :: sel, i => (if b then (st.at_ (efdSlot index i)).toList else []) ++ selected st index sel (i + 1)

/-- Signals go out in order until the first failing write. -/
theorem signalLoop_spec (index : Nat) (wr : Nat → Option Nat) (st : Irqs) (sel : List Bool) : ∀ (i k : Nat),
    (∀ s ∈ disSlots index sel.length i, (st.get s).isSome) →
    ((∀ m < (selected st index sel i).length, wr (k + m) = none) ∧
      signalLoop index wr sel i k st = (.ok (), (selected st index sel i).map Ev.signal)) ∨
    (∃ m e, m < (selected st index sel i).length ∧ (∀ m' < m, wr (k + m') = none) ∧ wr (k + m) = some e ∧
      signalLoop index wr sel i k st = (.err e, ((selected st index sel i).take m).map Ev.signal)) := by
  induction sel with
  | nil => intro i k _; exact .inl ⟨by simp [selected], rfl⟩
  | cons b sel ih =>
    intro i k hs
    rw [List.length_cons, disSlots_succ] at hs
    have h0 := hs _ (List.mem_cons_self ..)
    have hs' : ∀ s ∈ disSlots index sel.length (i + 1), (st.get s).isSome :=
      fun s hm => hs s (List.mem_cons_of_mem _ hm)
    rcases hg : st.get (efdSlot index i) with _ | v
    · rw [hg] at h0; cases h0
    have hat : st.at_ (efdSlot index i) = v := by simp [Irqs.at_, hg]
    rcases v with _ | fd
    · have e1 : signalLoop index wr (b :: sel) i k st = signalLoop index wr sel (i + 1) k st := by
        simp only [signalLoop, hg]
      have e2 : selected st index (b :: sel) i = selected st index sel (i + 1) := by
        simp [selected, hat]
      rw [e1, e2]
      exact ih (i + 1) k hs'
    · rcases b with _ | _
      · have e1 : signalLoop index wr (false :: sel) i k st = signalLoop index wr sel (i + 1) k st := by
          simp only [signalLoop, hg, Bool.false_eq_true, if_false]
        have e2 : selected st index (false :: sel) i = selected st index sel (i + 1) := by
          simp [selected]
        rw [e1, e2]
        exact ih (i + 1) k hs'
      · have e2 : selected st index (true :: sel) i = fd :: selected st index sel (i + 1) := by
          simp [selected, hat]
        rw [e2]
        rcases hw : wr k with _ | e
        · have e1 : signalLoop index wr (true :: sel) i k st =
              ((signalLoop index wr sel (i + 1) (k + 1) st).1,
               .signal fd :: (signalLoop index wr sel (i + 1) (k + 1) st).2) := by
            simp only [signalLoop, hg, if_true, hw]
          rw [e1]
          rcases ih (i + 1) (k + 1) hs' with ⟨h1, h2⟩ | ⟨m, e, hm, h1, h2, h3⟩
          · refine .inl ⟨?_, by rw [h2]; rfl⟩
            intro m hm
            rcases m with _ | m
            · exact hw
            · rw [show k + (m + 1) = k + 1 + m by omega]
              exact h1 m (by simpa using hm)
          · refine .inr ⟨m + 1, e, by simpa using hm, ?_, ?_, by rw [h3]; rfl⟩
            · intro m' hm'
              rcases m' with _ | m'
              · exact hw
              · rw [show k + (m' + 1) = k + 1 + m' by omega]
                exact h1 m' (by omega)
            · rw [show k + (m + 1) = k + 1 + m by omega]
              exact h2
        · refine .inr ⟨0, e, by simp, by simp, hw, ?_⟩
          simp only [signalLoop, hg, if_true, hw, List.take_zero, List.map_nil]

end Verif.Irq
