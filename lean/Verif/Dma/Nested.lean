import Verif.Dma.Slots

/-!
# Removing a region while the device's callback uses the library

C108, first half.  `dma_unregister` runs in the middle of a removal, with a pointer to the slot.  A device that transfers by message
in that callback (`vfu_sgl_read`, `vfu_sgl_write`) and loses its client there has the context reset (`lib/libvfio-user.c:2335-2345`):
all regions are removed, and the slots zeroed, before the callback returns. -/

namespace Verif.Dma
open Verif

/-- What a callback does to the array, and what happens meanwhile. -/
abbrev Inner := Arr → Res (Arr × List Ev)

/-- A callback that leaves the array alone. -/
def still : Inner := fun a => .ok (a, [])

/-- `lib/dma.c:164-174` and `lib/dma.c:200-210` on slot `idx`: the callback is given the slot, and the slot is looked at again
when it returns. -/
def adropAt (hasUnreg : Bool) (cb : Inner) (a : Arr) (idx : Nat) : Res (Arr × List Ev) :=
  match a.slots[idx]? with
  | none => .fault .oob
  | some r0 =>
    match (if hasUnreg = true then (cb a).map (fun x => (x.1, .unregister r0.info :: x.2)) else .ok (a, [])) with
    | .err e => .err e
    | .fault f => .fault f
    | .ok (a1, ev) =>
      match a1.slots[idx]? with
      | none => .fault .oob
      | some r =>
        match dropRegion false r with
        | .err e => .err e
        | .fault f => .fault f
        | .ok ev' => .ok ({ a1 with slots := a1.slots.set idx (closedSlot r) }, ev ++ ev')

/-- `lib/dma.c:157-178` from slot `idx`, `k` slots to go, with the `assert` of `array_remove` (`lib/dma.c:134`). -/
def aremoveIn (hasUnreg : Bool) (cb : Inner) (addr size : Nat) (a : Arr) : Nat → Nat → Res (Arr × List Ev)
  | 0, _ => .err ENOENT
  | k + 1, idx =>
    match a.slots[idx]? with
    | none => .fault .oob
    | some r =>
      if r.info.base ≠ addr ∨ r.info.len ≠ size then aremoveIn hasUnreg cb addr size a k (idx + 1)
      else
        match adropAt hasUnreg cb a idx with
        | .err e => .err e
        | .fault f => .fault f
        | .ok (a1, ev) => if a1.n ≤ idx then .fault .assertFail else .ok (arrayRemove a1 idx, ev)

/-- The loop of `lib/dma.c:191-211`, which compares with `nregions` each time; `fuel` rounds at most. -/
def adropFrom (hasUnreg : Bool) (cb : Inner) : Nat → Nat → Arr → Res (Arr × List Ev)
  | 0, i, a => if i < a.n then .fault .diverge else .ok (a, [])
  | fuel + 1, i, a =>
    if i < a.n then
      match adropAt hasUnreg cb a i with
      | .err e => .err e
      | .fault f => .fault f
      | .ok (a1, ev) => (adropFrom hasUnreg cb fuel (i + 1) a1).map (fun x => (x.1, ev ++ x.2))
    else .ok (a, [])

/-- `lib/dma.c:182-215` `dma_controller_remove_all_regions`. -/
def aremoveAllIn (hasUnreg : Bool) (cb : Inner) (a : Arr) : Res (Arr × List Ev) :=
  (adropFrom hasUnreg cb a.n 0 a).map
    (fun x => ({ x.1 with slots := List.replicate x.1.maxRegions zeroSlot, n := 0 }, x.2))

/-! ## A callback that leaves the array alone -/

theorem dropRegion_split (u : Bool) (r : Region) :
    dropRegion u r = (dropRegion false r).map (fun ev => (if u = true then [.unregister r.info] else []) ++ ev) := by
  unfold dropRegion
  by_cases hv : r.info.vaddr ≠ 0
  · rw [if_pos hv, if_pos hv]; cases r.fd <;> cases u <;> rfl
  · rw [if_neg hv, if_neg hv]; cases r.fd <;> cases u <;> rfl

theorem adropAt_still (u : Bool) (a : Arr) (idx : Nat) :
    adropAt u still a idx =
      match a.slots[idx]? with
      | none => .fault .oob
      | some r => (dropRegion u r).map (fun ev => ({ a with slots := a.slots.set idx (closedSlot r) }, ev)) := by
  unfold adropAt
  cases h : a.slots[idx]? with
  | none => rfl
  | some r =>
    dsimp only
    have hs : (if u = true then (still a).map (fun x => (x.1, .unregister r.info :: x.2)) else Res.ok (a, [])) =
        .ok (a, if u = true then [.unregister r.info] else []) := by cases u <;> rfl
    rw [hs]
    dsimp only
    rw [h, dropRegion_split u r]
    dsimp only
    cases dropRegion false r <;> rfl

/-- With a callback that leaves the array alone this is the removal of `Slots`. -/
theorem aremoveIn_still (u : Bool) (addr size : Nat) {a : Arr} (k : Nat) : ∀ idx, idx + k = a.n →
    aremoveIn u still addr size a k idx = aremoveLoop u addr size a k idx := by
  induction k with
  | zero => exact fun _ _ => rfl
  | succ k ih =>
    intro idx hk
    unfold aremoveIn aremoveLoop
    cases h : a.slots[idx]? with
    | none => rfl
    | some r =>
      dsimp only
      by_cases hm : r.info.base ≠ addr ∨ r.info.len ≠ size
      · rw [if_pos hm, if_pos hm]; exact ih (idx + 1) (by omega)
      · rw [if_neg hm, if_neg hm, adropAt_still, h]
        dsimp only
        cases dropRegion u r with
        | err e => rfl
        | fault f => rfl
        | ok ev =>
          have hn : ¬ a.n ≤ idx := by omega
          show (if a.n ≤ idx then _ else _) = _
          rw [if_neg hn]

theorem adropFrom_still (u : Bool) (k : Nat) : ∀ (i : Nat) (a : Arr), i + k = a.n → a.n ≤ a.slots.length →
    ∃ s, (adropFrom u still k i a) = (dropAll u ((a.slots.take a.n).drop i)).map (fun ev => ({ a with slots := s }, ev)) := by
  induction k with
  | zero =>
    intro i a hk hl
    have hd : (a.slots.take a.n).drop i = [] := by
      apply List.drop_eq_nil_of_le
      rw [List.length_take]; omega
    have hi : ¬ i < a.n := by omega
    refine ⟨a.slots, ?_⟩
    rw [hd]
    unfold adropFrom
    rw [if_neg hi]
    rfl
  | succ k ih =>
    intro i a hk hl
    have hi : i < a.n := by omega
    have hlt : i < a.slots.length := by omega
    have hg : a.slots[i]? = some a.slots[i] := List.getElem?_eq_getElem hlt
    generalize hr : a.slots[i] = r at hg
    have hcons : (a.slots.take a.n).drop i = r :: (a.slots.take a.n).drop (i + 1) := by
      rw [List.drop_eq_getElem_cons (by rw [List.length_take]; omega), List.getElem_take, hr]
    rw [hcons]
    unfold adropFrom dropAll
    rw [if_pos hi, adropAt_still, hg]
    dsimp only
    cases dropRegion u r with
    | err e => exact ⟨[], rfl⟩
    | fault f => exact ⟨[], rfl⟩
    | ok ev =>
      obtain ⟨s, hs⟩ := ih (i + 1) { a with slots := a.slots.set i (closedSlot r) } (by simp only; omega)
        (by simp only [List.length_set]; exact hl)
      have htail : ((a.slots.set i (closedSlot r)).take a.n).drop (i + 1) = (a.slots.take a.n).drop (i + 1) := by
        apply List.ext_getElem?
        intro j
        simp only [List.getElem?_drop, List.getElem?_take, List.getElem?_set]
        have : ¬ i = i + 1 + j := by omega
        simp [this]
      dsimp only at hs
      rw [htail] at hs
      refine ⟨s, ?_⟩
      show (adropFrom u still k (i + 1) { a with slots := a.slots.set i (closedSlot r) }).map _ = _
      rw [hs]
      cases dropAll u ((a.slots.take a.n).drop (i + 1)) <;> rfl

/-- C108: a callback that leaves the array alone makes no difference. -/
theorem C108_still (u : Bool) {a : Arr} (h : a.WF) :
    (∀ addr size, aremoveIn u still addr size a a.n 0 = aremoveLoop u addr size a a.n 0) ∧
    aremoveAllIn u still a = aremoveAll a u := by
  refine ⟨fun addr size => aremoveIn_still u addr size a.n 0 (by omega), ?_⟩
  obtain ⟨s, hs⟩ := adropFrom_still u a.n 0 a (by omega) (by have := h.len; have := h.use; omega)
  unfold aremoveAllIn aremoveAll
  rw [hs, List.drop_zero]
  cases dropAll u (a.slots.take a.n) <;> rfl

/-! ## A callback that loses the client -/

/-- The slot of a region whose callback had all regions removed. -/
theorem adropAt_emptied {cb : Inner} {a a1 : Arr} {ev : List Ev} {idx : Nat} (hl : idx < a.slots.length)
    (hcb : cb a = .ok (a1, ev)) (hz : a1.slots[idx]? = some zeroSlot) : adropAt true cb a idx = .fault .assertFail := by
  unfold adropAt
  rw [List.getElem?_eq_getElem hl]
  dsimp only
  rw [if_pos rfl, hcb]
  show (match a1.slots[idx]? with | none => _ | some r => _) = _
  rw [hz]
  rfl

/-- What the reset of the context does to the array, once the callbacks inside it are over. -/
def lostClient : Inner := fun a => aremoveAll a true

theorem aremoveIn_found {cb : Inner} (u : Bool) {addr size : Nat} {a : Arr} (hl : a.n ≤ a.slots.length)
    (hf : ∀ i < a.n, adropAt u cb a i = .fault .assertFail) (k : Nat) : ∀ idx, idx + k = a.n →
    (∃ r ∈ (a.slots.take a.n).drop idx, r.info.base = addr ∧ r.info.len = size) →
    aremoveIn u cb addr size a k idx = .fault .assertFail := by
  induction k with
  | zero =>
    intro idx hk ⟨r, hr, _⟩
    have hd : (a.slots.take a.n).drop idx = [] := by
      apply List.drop_eq_nil_of_le
      rw [List.length_take]; omega
    rw [hd] at hr
    cases hr
  | succ k ih =>
    intro idx hk ⟨r, hr, hm⟩
    have hlt : idx < a.slots.length := by omega
    have hg : a.slots[idx]? = some a.slots[idx] := List.getElem?_eq_getElem hlt
    generalize hr0 : a.slots[idx] = r0 at hg
    have hcons : (a.slots.take a.n).drop idx = r0 :: (a.slots.take a.n).drop (idx + 1) := by
      rw [List.drop_eq_getElem_cons (by rw [List.length_take]; omega), List.getElem_take, hr0]
    rw [hcons] at hr
    unfold aremoveIn
    rw [hg]
    dsimp only
    by_cases hne : r0.info.base ≠ addr ∨ r0.info.len ≠ size
    · rw [if_pos hne]
      refine ih (idx + 1) (by omega) ⟨r, ?_, hm⟩
      rcases List.mem_cons.mp hr with h | h
      · subst h
        rcases hne with h | h
        · exact absurd hm.1 h
        · exact absurd hm.2 h
      · exact h
    · rw [if_neg hne, hf idx (by omega)]

/-- C108: in every history, a device that loses its client inside of `dma_unregister` and whose context is reset there ends
abnormally when the callback returns: whether the region was being unmapped by the client or with all others. -/
theorem C108_unregister (cfg : Cfg) (m s : Nat) (ops : List Op) (hops : ∀ op ∈ ops, op.OSOk ∧ op.Bounded) :
    let a := (arun cfg (acreate m s) ops).1
    (∀ r ∈ a.ctl.regions, aremoveIn true lostClient r.info.base r.info.len a a.n 0 = .fault .assertFail) ∧
    (a.ctl.regions ≠ [] → aremoveAllIn true lostClient a = .fault .assertFail) := by
  intro a
  obtain ⟨w, e1, _, _⟩ := arun_spec cfg ops (wf_acreate m s)
  have hinv := inv2_run cfg m s ops hops
  rw [acreate_ctl] at e1
  have hw : a.WF := w
  have hlen := hw.len
  have huse := hw.use
  have hc : ∀ r ∈ a.slots.take a.n, r.Consistent := by
    intro r hr
    refine hinv.consistent r ?_
    rw [← e1]
    exact hr
  have hcb : ∃ ev, lostClient a = .ok ({ a with slots := List.replicate a.maxRegions zeroSlot, n := 0 }, ev) := by
    obtain ⟨ev, hev⟩ := dropAll_ok (u := true) _ hc
    refine ⟨ev, ?_⟩
    unfold lostClient aremoveAll
    rw [hev]
  obtain ⟨ev, hcb⟩ := hcb
  have hat : ∀ i < a.n, adropAt true lostClient a i = .fault .assertFail := by
    intro i hi
    refine adropAt_emptied (by omega) hcb ?_
    show (List.replicate a.maxRegions zeroSlot)[i]? = _
    rw [List.getElem?_replicate, if_pos (by omega)]
  refine ⟨fun r hr => aremoveIn_found true (by omega) hat a.n 0 (by omega) ⟨r, hr, rfl, rfl⟩, fun hne => ?_⟩
  have hn : 0 < a.n := by
    rcases Nat.eq_zero_or_pos a.n with h | h
    · exact absurd (by show a.slots.take a.n = []; rw [h]; rfl) hne
    · exact h
  unfold aremoveAllIn
  obtain ⟨k, hk⟩ : ∃ k, a.n = k + 1 := ⟨a.n - 1, by omega⟩
  rw [hk]
  unfold adropFrom
  rw [if_pos hn, hat 0 hn]
  rfl

/-- Two regions, one with a file; the client unmaps either, or all. -/
example :
    let ops := [mapFd 0x1000 0x1000 0 4, mapAt 0x2000 0x1000]
    let a := (arun cfg0 (acreate 64 0x10000) ops).1
    (∀ op ∈ ops, op.OSOk ∧ op.Bounded) ∧ a.ctl.regions.length = 2 ∧
    aremoveIn true lostClient 0x1000 0x1000 a a.n 0 = .fault .assertFail ∧
    aremoveIn true lostClient 0x2000 0x1000 a a.n 0 = .fault .assertFail ∧
    aremoveAllIn true lostClient a = .fault .assertFail ∧ aremoveAllIn true still a = aremoveAll a true := by
  refine ⟨?_, by decide +kernel, by decide +kernel, by decide +kernel, by decide +kernel, by decide +kernel⟩
  intro op hop
  simp only [List.mem_cons, List.not_mem_nil, or_false] at hop
  rcases hop with rfl | rfl
  · exact ⟨os0_ok, by simp only [Op.Bounded, mapFd, MapReq.Bounded]; decide⟩
  · exact ⟨os0_ok, by simp only [Op.Bounded, mapAt, MapReq.Bounded]; decide⟩

end Verif.Dma
