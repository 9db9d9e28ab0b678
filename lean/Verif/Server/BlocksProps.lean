import Verif.Server.Blocks
import Mathlib.Data.List.Perm.Basic
import Mathlib.Tactic.Common

/-!
# C96: the memory of a request is freed once, and not used afterwards -/

namespace Verif.Blocks

/-! ## What is claimed -/

/-- No null pointer is used, no block is allocated twice, and a block is used or freed only after it was allocated and before it is
freed. -/
structure Proper (tr : List HEv) : Prop where
  wild : .wild ∉ tr
  alloc : ∀ a b s, tr = a ++ .alloc b :: s → .alloc b ∉ a
  use : ∀ a b s, tr = a ++ .use b :: s → .alloc b ∈ a ∧ .free b ∉ a
  free : ∀ a b s, tr = a ++ .free b :: s → .alloc b ∈ a ∧ .free b ∉ a

/-- Allocated and not freed. -/
def Live (tr : List HEv) (b : Nat) : Prop := .alloc b ∈ tr ∧ .free b ∉ tr

/-! ## The invariant -/

/-- The live blocks are those of the list. -/
structure Inv (c : Ctx) (l : List Nat) : Prop where
  nodup : l.Nodup
  fresh : ∀ b, .alloc b ∈ c.tr → b < c.next
  live : ∀ b, b ∈ l ↔ Live c.tr b
  freed : ∀ b, .free b ∈ c.tr → .alloc b ∈ c.tr
  ok : Proper c.tr

theorem split_snoc {α : Type} {tr a s : List α} {e x : α} (h : tr ++ [e] = a ++ x :: s) :
    (s = [] ∧ a = tr ∧ x = e) ∨ ∃ s', s = s' ++ [e] ∧ tr = a ++ x :: s' := by
  rcases List.eq_nil_or_concat s with rfl | ⟨s', y, rfl⟩
  · have h1 := List.append_inj' h rfl
    exact .inl ⟨rfl, h1.1.symm, (List.cons.inj h1.2).1.symm⟩
  · have h2 : tr ++ [e] = (a ++ x :: s') ++ [y] := by rw [h]; simp
    have h1 := List.append_inj' h2 rfl
    exact .inr ⟨s', by rw [(List.cons.inj h1.2).1]; simp, h1.1⟩

theorem Proper.snoc {tr : List HEv} (h : Proper tr) (e : HEv) (h0 : e ≠ .wild) (h1 : ∀ b, e = .alloc b → .alloc b ∉ tr)
    (h2 : ∀ b, e = .use b → .alloc b ∈ tr ∧ .free b ∉ tr) (h3 : ∀ b, e = .free b → .alloc b ∈ tr ∧ .free b ∉ tr) :
    Proper (tr ++ [e]) := by
  refine ⟨?_, ?_, ?_, ?_⟩
  · intro hw
    rcases List.mem_append.mp hw with hw | hw
    · exact h.wild hw
    · exact h0 (List.mem_singleton.mp hw).symm
  · intro a b s hs
    rcases split_snoc hs with ⟨_, rfl, he⟩ | ⟨s', _, hs'⟩
    · exact h1 b he.symm
    · exact h.alloc a b s' hs'
  · intro a b s hs
    rcases split_snoc hs with ⟨_, rfl, he⟩ | ⟨s', _, hs'⟩
    · exact h2 b he.symm
    · exact h.use a b s' hs'
  · intro a b s hs
    rcases split_snoc hs with ⟨_, rfl, he⟩ | ⟨s', _, hs'⟩
    · exact h3 b he.symm
    · exact h.free a b s' hs'

theorem inv_init : Inv Ctx.init [] where
  nodup := List.nodup_nil
  fresh := fun _ h => by cases h
  live := fun b => ⟨(fun h => by cases h), fun h => by cases h.1⟩
  freed := fun _ h => by cases h
  ok := by
    refine ⟨(fun h => by cases h), ?_, ?_, ?_⟩ <;>
    · intro a b s hs
      have h1 : ([] : List HEv) = a ++ _ :: s := hs
      cases a <;> cases h1

theorem Inv.perm {c : Ctx} {l l' : List Nat} (h : Inv c l) (hp : l.Perm l') : Inv c l' :=
  ⟨hp.nodup_iff.mp h.nodup, h.fresh, fun b => (hp.mem_iff.symm).trans (h.live b), h.freed, h.ok⟩

/-- Only the heap matters. -/
theorem Inv.same {c c' : Ctx} {l : List Nat} (h : Inv c l) (h1 : c'.tr = c.tr) (h2 : c'.next = c.next) : Inv c' l :=
  ⟨h.nodup, fun b hb => by rw [h2]; exact h.fresh b (h1 ▸ hb), fun b => by rw [h1]; exact h.live b,
    fun b hb => by rw [h1] at hb ⊢; exact h.freed b hb, by rw [h1]; exact h.ok⟩

theorem inv_take {c : Ctx} {l : List Nat} (h : Inv c l) (ok : Bool) : Inv (take c ok).1 ((take c ok).2.toList ++ l) := by
  unfold take
  cases ok with
  | false => exact h
  | true =>
    rw [if_pos rfl]
    have hn : HEv.alloc c.next ∉ c.tr := fun hm => Nat.lt_irrefl _ (h.fresh _ hm)
    have hf : HEv.free c.next ∉ c.tr := fun hm => hn (h.freed _ hm)
    refine ⟨?_, ?_, ?_, ?_, ?_⟩
    · exact List.nodup_cons.mpr ⟨fun hm => hn ((h.live _).mp hm).1, h.nodup⟩
    · intro b hb
      rcases List.mem_append.mp hb with hb | hb
      · exact Nat.lt_succ_of_lt (h.fresh b hb)
      · cases List.mem_singleton.mp hb
        exact Nat.lt_succ_self _
    · intro b
      show b ∈ c.next :: l ↔ .alloc b ∈ c.tr ++ [.alloc c.next] ∧ .free b ∉ c.tr ++ [.alloc c.next]
      constructor
      · intro hm
        rcases List.mem_cons.mp hm with rfl | hm
        · exact ⟨by simp, by simpa using hf⟩
        · have := (h.live b).mp hm
          exact ⟨List.mem_append_left _ this.1, by simpa using this.2⟩
      · rintro ⟨h1, h2⟩
        rcases List.mem_append.mp h1 with h1 | h1
        · exact List.mem_cons_of_mem _ ((h.live b).mpr ⟨h1, fun h3 => h2 (List.mem_append_left _ h3)⟩)
        · cases List.mem_singleton.mp h1
          exact List.mem_cons_self
    · intro b hb
      rcases List.mem_append.mp hb with hb | hb
      · exact List.mem_append_left _ (h.freed b hb)
      · cases List.mem_singleton.mp hb
    · exact h.ok.snoc _ (by simp) (fun b hb => by cases hb; exact hn) (fun b hb => by cases hb) (fun b hb => by cases hb)

theorem inv_use {c : Ctx} {l : List Nat} (h : Inv c l) {b : Nat} (hb : b ∈ l) : Inv (use c (some b)) l := by
  have hl := (h.live b).mp hb
  refine ⟨h.nodup, ?_, ?_, ?_, ?_⟩
  · intro x hx
    rcases List.mem_append.mp hx with hx | hx
    · exact h.fresh x hx
    · cases List.mem_singleton.mp hx
  · intro x
    rw [h.live x]
    show _ ↔ .alloc x ∈ c.tr ++ [HEv.use b] ∧ .free x ∉ c.tr ++ [HEv.use b]
    simp [Live]
  · intro x hx
    rcases List.mem_append.mp hx with hx | hx
    · exact List.mem_append_left _ (h.freed x hx)
    · cases List.mem_singleton.mp hx
  · exact h.ok.snoc _ (by simp) (fun _ hb => by cases hb) (fun _ hb => by cases hb; exact hl) (fun _ hb => by cases hb)

theorem inv_useIf {c : Ctx} {l : List Nat} (h : Inv c l) {p : Option Nat} (hp : ∀ b, p = some b → b ∈ l) :
    Inv (useIf c p) l := by
  cases p with
  | none => exact h
  | some b => exact inv_use h (hp b rfl)

theorem inv_release {c : Ctx} {l : List Nat} {p : Option Nat} (h : Inv c (p.toList ++ l)) : Inv (release c p) l := by
  cases p with
  | none => exact h
  | some b =>
    have h : Inv c (b :: l) := h
    have hl := (h.live b).mp List.mem_cons_self
    have hnd := List.nodup_cons.mp h.nodup
    refine ⟨hnd.2, ?_, ?_, ?_, ?_⟩
    · intro x hx
      rcases List.mem_append.mp hx with hx | hx
      · exact h.fresh x hx
      · cases List.mem_singleton.mp hx
    · intro x
      show x ∈ l ↔ .alloc x ∈ c.tr ++ [HEv.free b] ∧ .free x ∉ c.tr ++ [HEv.free b]
      constructor
      · intro hx
        have h1 := (h.live x).mp (List.mem_cons_of_mem _ hx)
        refine ⟨List.mem_append_left _ h1.1, fun h2 => ?_⟩
        rcases List.mem_append.mp h2 with h2 | h2
        · exact h1.2 h2
        · cases List.mem_singleton.mp h2
          exact hnd.1 hx
      · rintro ⟨h1, h2⟩
        have h1 : HEv.alloc x ∈ c.tr := by simpa using h1
        have h3 : x ∈ b :: l := (h.live x).mpr ⟨h1, fun h4 => h2 (List.mem_append_left _ h4)⟩
        rcases List.mem_cons.mp h3 with rfl | h3
        · exact absurd (List.mem_append_right _ List.mem_cons_self) h2
        · exact h3
    · intro x hx
      rcases List.mem_append.mp hx with hx | hx
      · exact List.mem_append_left _ (h.freed x hx)
      · cases List.mem_singleton.mp hx
        exact List.mem_append_left _ hl.1
    · exact h.ok.snoc _ (by simp) (fun _ hb => by cases hb) (fun _ hb => by cases hb) (fun _ hb => by cases hb; exact hl)

/-! ## Messages -/

/-- As a message is before it is handled. -/
structure Raw (m : Msg) : Prop where
  iov : m.outIov = none
  fds : m.outFds = none
  body : m.cmd = .reset ∨ ∃ p, m.inIov = some p

theorem self_mem (m : Msg) (r : List Nat) : m.self ∈ m.blocks ++ r := List.mem_append_left _ List.mem_cons_self

theorem inIov_mem {m : Msg} {p : Nat} (h : m.inIov = some p) (r : List Nat) : p ∈ m.blocks ++ r := by
  simp [Msg.blocks, h]

theorem inFds_mem {m : Msg} {p : Nat} (h : m.inFds = some p) (r : List Nat) : p ∈ m.blocks ++ r := by
  simp [Msg.blocks, h]

theorem outFds_mem {m : Msg} {p : Nat} (h : m.outFds = some p) (r : List Nat) : p ∈ m.blocks ++ r := by
  simp [Msg.blocks, h]

theorem outIov_mem {m : Msg} {p : Nat} (h : m.outIov = some p) (r : List Nat) : p ∈ m.blocks ++ r := by
  simp [Msg.blocks, h]

/-- A new block becomes the reply. -/
theorem inv_outIov {c : Ctx} {m : Msg} {r : List Nat} {p : Nat} (ho : m.outIov = none) (h : Inv c (p :: (m.blocks ++ r))) :
    Inv c ({ m with outIov := some p }.blocks ++ r) := by
  refine h.perm ?_
  obtain ⟨self, cmd, a, b, d, e⟩ := m
  cases ho
  show (p :: (self :: (a.toList ++ (b.toList ++ (d.toList ++ []))) ++ r)).Perm
    (self :: (a.toList ++ (b.toList ++ (d.toList ++ [p]))) ++ r)
  rw [List.append_nil]
  have : (self :: (a.toList ++ (b.toList ++ (d.toList ++ [p])))).Perm (p :: (self :: (a.toList ++ (b.toList ++ d.toList)))) := by
    have e1 : (self :: (a.toList ++ (b.toList ++ (d.toList ++ [p])))) = (self :: (a.toList ++ (b.toList ++ d.toList))) ++ [p] := by
      simp
    rw [e1]
    exact List.perm_append_singleton p _
  exact (this.append_right r).symm

/-- … or the array of its descriptors. -/
theorem inv_outFds {c : Ctx} {m : Msg} {r : List Nat} {p : Nat} (ho : m.outFds = none) (h : Inv c (p :: (m.blocks ++ r))) :
    Inv c ({ m with outFds := some p }.blocks ++ r) := by
  refine h.perm ?_
  obtain ⟨self, cmd, a, b, d, e⟩ := m
  cases ho
  show (p :: (self :: (a.toList ++ (b.toList ++ ([] ++ e.toList))) ++ r)).Perm
    (self :: (a.toList ++ (b.toList ++ ([p] ++ e.toList))) ++ r)
  have e1 : (self :: (a.toList ++ (b.toList ++ ([p] ++ e.toList)))) ++ r = (self :: (a.toList ++ b.toList)) ++ p :: (e.toList ++ r) := by
    simp
  have e2 : p :: (self :: (a.toList ++ (b.toList ++ ([] ++ e.toList))) ++ r) = p :: ((self :: (a.toList ++ b.toList)) ++ (e.toList ++ r)) := by
    simp
  rw [e1, e2]
  exact List.perm_middle.symm

/-- … or the payload. -/
theorem inv_inIov {c : Ctx} {m : Msg} {r : List Nat} {p : Nat} (ho : m.inIov = none) (h : Inv c (p :: (m.blocks ++ r))) :
    Inv c ({ m with inIov := some p }.blocks ++ r) := by
  refine h.perm ?_
  obtain ⟨self, cmd, a, b, d, e⟩ := m
  cases ho
  exact List.Perm.swap _ _ _

theorem inv_iovFree {c : Ctx} {m : Msg} {r : List Nat} (h : Inv c (m.blocks ++ r)) :
    Inv (iovFree c m).1 ((iovFree c m).2.blocks ++ r) := by
  refine inv_release (h.perm ?_)
  obtain ⟨self, cmd, a, b, d, e⟩ := m
  show (self :: (a.toList ++ (b.toList ++ (d.toList ++ e.toList))) ++ r).Perm
    (e.toList ++ (self :: (a.toList ++ (b.toList ++ (d.toList ++ []))) ++ r))
  have e1 : self :: (a.toList ++ (b.toList ++ (d.toList ++ e.toList))) ++ r =
      (self :: (a.toList ++ (b.toList ++ d.toList))) ++ (e.toList ++ r) := by simp
  have e2 : e.toList ++ (self :: (a.toList ++ (b.toList ++ (d.toList ++ []))) ++ r) =
      (e.toList ++ ((self :: (a.toList ++ (b.toList ++ d.toList))) ++ r)) := by simp
  rw [e1, e2]
  generalize self :: (a.toList ++ (b.toList ++ d.toList)) = x
  rw [← List.append_assoc, ← List.append_assoc]
  exact List.perm_append_comm.append_right r

/-- What may become of the pending request meanwhile. -/
def Keeps (c c' : Ctx) : Prop := c'.pending = c.pending ∨ (c.pending = .none ∧ c'.pending = .reset)

theorem Keeps.refl (c : Ctx) : Keeps c c := .inl rfl

theorem Keeps.trans {a b c : Ctx} (h1 : Keeps a b) (h2 : Keeps b c) : Keeps a c := by
  rcases h1 with h1 | ⟨h1, h1'⟩
  · rcases h2 with h2 | ⟨h2, h2'⟩
    · exact .inl (h2.trans h1)
    · exact .inr ⟨h1 ▸ h2, h2'⟩
  · rcases h2 with h2 | ⟨h2, h2'⟩
    · exact .inr ⟨h1, h2.trans h1'⟩
    · rw [h1'] at h2; cases h2

theorem Keeps.blocks {a b : Ctx} (h : Keeps a b) : b.pending.blocks = a.pending.blocks := by
  rcases h with h | ⟨h1, h2⟩
  · rw [h]
  · rw [h1, h2]; rfl

theorem keeps_take (c : Ctx) (ok : Bool) : (take c ok).1.pending = c.pending := by unfold take; cases ok <;> rfl
theorem keeps_use (c : Ctx) (p : Option Nat) : (use c p).pending = c.pending := rfl
theorem keeps_useIf (c : Ctx) (p : Option Nat) : (useIf c p).pending = c.pending := by cases p <;> rfl
theorem keeps_release (c : Ctx) (p : Option Nat) : (release c p).pending = c.pending := by cases p <;> rfl

theorem take_false (c : Ctx) : take c false = (c, none) := rfl
theorem take_true (c : Ctx) :
    take c true = ({ c with next := c.next + 1, tr := c.tr ++ [.alloc c.next] }, some c.next) := rfl

theorem keeps_resetCtx (b : Bool) (c : Ctx) : Keeps c (resetCtx b c) := by
  unfold resetCtx
  by_cases h : c.pending = .none ∧ b = true
  · rw [if_pos h]; exact .inr ⟨h.1, rfl⟩
  · rw [if_neg h]; exact .refl c

theorem inv_resetCtx {c : Ctx} {l : List Nat} (h : Inv c l) (b : Bool) : Inv (resetCtx b c) l := by
  unfold resetCtx
  by_cases hb : c.pending = .none ∧ b = true
  · rw [if_pos hb]; exact h.same rfl rfl
  · rw [if_neg hb]; exact h

theorem chunks_keeps (p : Option Nat) : ∀ (n : Nat) (c : Ctx), (chunks p n c).pending = c.pending
  | 0, _ => rfl
  | n + 1, c => chunks_keeps p n (use c p)

theorem inv_chunks {l : List Nat} {p : Nat} (hp : p ∈ l) : ∀ (n : Nat) (c : Ctx), Inv c l → Inv (chunks (some p) n c) l
  | 0, _, h => h
  | n + 1, c, h => inv_chunks hp n (use c (some p)) (inv_use h hp)

/-! ## Transfers -/

theorem transfer_ok (x : Xfer) (c : Ctx) (l : List Nat) (h : Inv c l) : Inv (transfer x c) l ∧ Keeps c (transfer x c) := by
  unfold transfer
  by_cases h1 : c.dead = true
  · rw [if_pos h1]; exact ⟨h, .refl c⟩
  rw [if_neg h1]
  by_cases h2 : c.pending ≠ .none
  · rw [if_pos h2]; exact ⟨h.same rfl rfl, .inl rfl⟩
  rw [if_neg h2]
  by_cases h3 : x.early = true
  · rw [if_pos h3]; exact ⟨h, .refl c⟩
  rw [if_neg h3]
  have ht := inv_take h x.mem
  cases hm : x.mem with
  | false => exact ⟨h, .refl c⟩
  | true =>
    rw [hm, take_true] at ht
    rw [take_true]
    dsimp only at ht ⊢
    have hc := inv_chunks (p := c.next) (l := c.next :: l) List.mem_cons_self x.chunks _ ht
    have hk := chunks_keeps (some c.next) x.chunks { c with next := c.next + 1, tr := c.tr ++ [.alloc c.next] }
    generalize chunks (some c.next) x.chunks { c with next := c.next + 1, tr := c.tr ++ [.alloc c.next] } = d at hc hk ⊢
    by_cases hl : x.lost = true
    · rw [if_pos hl]
      refine ⟨inv_release (p := some c.next) (inv_resetCtx hc x.busy), ?_⟩
      have hr := keeps_resetCtx x.busy d
      have : Keeps c (resetCtx x.busy d) := Keeps.trans (.inl hk) hr
      exact this.trans (.inl (keeps_release _ _))
    · rw [if_neg hl]
      exact ⟨inv_release (p := some c.next) hc, Keeps.trans (.inl hk) (.inl (keeps_release _ _))⟩

theorem transfers_ok (l : List Nat) : ∀ (xs : List Xfer) (c : Ctx), Inv c l → Inv (transfers xs c) l ∧ Keeps c (transfers xs c)
  | [], c, h => ⟨h, .refl c⟩
  | x :: xs, c, h => by
    obtain ⟨h1, k1⟩ := transfer_ok x c l h
    obtain ⟨h2, k2⟩ := transfers_ok l xs (transfer x c) h1
    exact ⟨h2, k1.trans k2⟩

/-! ## Handlers -/

/-- What a handler guarantees. -/
def Fine (c : Ctx) (r : List Nat) (o : Ctx × Msg) : Prop := Inv o.1 (o.2.blocks ++ r) ∧ Keeps c o.1

theorem none_eta {m : Msg} (h : m.outIov = none) : { m with outIov := none } = m := by
  obtain ⟨self, cmd, a, b, d, e⟩ := m
  cases h; rfl

theorem noFds_eta {m : Msg} (h : m.outFds = none) : { m with outFds := none } = m := by
  obtain ⟨self, cmd, a, b, d, e⟩ := m
  cases h; rfl

theorem noIn_eta {m : Msg} (h : m.inIov = none) : { m with inIov := none } = m := by
  obtain ⟨self, cmd, a, b, d, e⟩ := m
  cases h; rfl

section
variable {c : Ctx} {m : Msg} {r : List Nat} (h : Inv c (m.blocks ++ r)) (ho : m.outIov = none) (hf : m.outFds = none)
  {i : Nat} (hi : m.inIov = some i) (w : Way)
include h ho hi

/-- The reply allocated and filled. -/
theorem inv_filled : Inv (use (use (take (use c m.inIov) true).1 m.inIov) (some c.next))
    ({ m with outIov := some c.next }.blocks ++ r) := by
  have h1 := inv_use h (inIov_mem hi r)
  have h2 := inv_take h1 true
  rw [take_true] at h2 ⊢
  dsimp only at h2 ⊢
  have h3 := inv_outIov (p := c.next) ho h2
  have h4 := inv_use h3 (b := i) (inIov_mem (m := { m with outIov := some c.next }) hi r)
  have h5 := inv_use h4 (b := c.next) (outIov_mem (m := { m with outIov := some c.next }) rfl r)
  rw [← hi] at h5
  exact h5

theorem answer_ok : Fine c r (answer w c m) := by
  unfold answer
  dsimp only
  have h1 : Inv (use c m.inIov) (m.blocks ++ r) := by rw [hi]; exact inv_use h (inIov_mem hi r)
  by_cases hr : w.refuse = true
  · rw [if_pos hr]; exact ⟨h1, .inl rfl⟩
  rw [if_neg hr]
  cases w.memOut with
  | false =>
    rw [take_false]
    dsimp only
    rw [none_eta ho]
    exact ⟨h1, .inl rfl⟩
  | true =>
    have h2 := inv_filled h ho hi
    rw [take_true] at h2 ⊢
    dsimp only at h2 ⊢
    obtain ⟨h3, k3⟩ := transfers_ok _ w.xfers _ h2
    exact ⟨h3, Keeps.trans (.inl rfl) k3⟩

include hf

omit h ho hi in
/-- The descriptors of the reply. -/
theorem fds_ok {d : Ctx} {p : Nat} (h2 : Inv d ({ m with outIov := some p }.blocks ++ r)) (ok : Bool) :
    Inv (match take d ok with
      | (c, none) => (c, ({ m with outIov := some p, outFds := none } : Msg))
      | (c, some q) => (use (use c (some q)) (some p), { m with outIov := some p, outFds := some q })).1
      ((match take d ok with
      | (c, none) => (c, ({ m with outIov := some p, outFds := none } : Msg))
      | (c, some q) => (use (use c (some q)) (some p), { m with outIov := some p, outFds := some q })).2.blocks ++ r) ∧
    Keeps d (match take d ok with
      | (c, none) => (c, ({ m with outIov := some p, outFds := none } : Msg))
      | (c, some q) => (use (use c (some q)) (some p), { m with outIov := some p, outFds := some q })).1 := by
  cases ok with
  | false =>
    rw [take_false]
    dsimp only
    have e : ({ m with outIov := some p, outFds := none } : Msg) = { m with outIov := some p } :=
      noFds_eta (m := { m with outIov := some p }) hf
    rw [e]
    exact ⟨h2, .inl rfl⟩
  | true =>
    have h3 := inv_take h2 true
    rw [take_true] at h3 ⊢
    dsimp only at h3 ⊢
    have h4 := inv_outFds (m := { m with outIov := some p }) (p := d.next) hf h3
    have h5 := inv_use h4 (b := d.next) (outFds_mem (m := { m with outIov := some p, outFds := some d.next }) rfl r)
    exact ⟨inv_use h5 (b := p) (outIov_mem (m := { m with outIov := some p, outFds := some d.next }) rfl r), .inl rfl⟩

theorem regionInfo_ok : Fine c r (regionInfo w c m) := by
  unfold regionInfo
  dsimp only
  have h1 : Inv (use c m.inIov) (m.blocks ++ r) := by rw [hi]; exact inv_use h (inIov_mem hi r)
  by_cases hr : w.refuse = true
  · rw [if_pos hr]; exact ⟨h1, .inl rfl⟩
  rw [if_neg hr]
  cases w.memOut with
  | false =>
    rw [take_false]
    dsimp only
    rw [none_eta ho]
    exact ⟨h1, .inl rfl⟩
  | true =>
    have h2 := inv_filled h ho hi
    rw [take_true] at h2 ⊢
    dsimp only at h2 ⊢
    by_cases hfit : w.fit = true
    · rw [if_pos hfit]
      obtain ⟨h3, k3⟩ := fds_ok hf h2 w.memOutFds
      exact ⟨h3, Keeps.trans (.inl rfl) k3⟩
    · rw [if_neg hfit]
      exact ⟨h2, .inl rfl⟩

theorem ioFds_ok : Fine c r (ioFds w c m) := by
  unfold ioFds
  rw [if_neg (by rw [hf]; simp)]
  exact regionInfo_ok h ho hf hi w

omit hf

theorem featDma_ok : Fine c r (featDma w c m) := by
  unfold featDma
  dsimp only
  have h1 : Inv (use c m.inIov) (m.blocks ++ r) := by rw [hi]; exact inv_use h (inIov_mem hi r)
  by_cases hr : w.refuse = true
  · rw [if_pos hr]; exact ⟨inv_iovFree h1, .inl (keeps_release _ _)⟩
  rw [if_neg hr]
  cases w.memOut with
  | false =>
    rw [take_false]
    dsimp only
    rw [none_eta ho]
    exact ⟨h1, .inl rfl⟩
  | true =>
    have h2 := inv_filled h ho hi
    rw [take_true] at h2 ⊢
    dsimp only at h2 ⊢
    by_cases hfl : w.fail = true
    · rw [if_pos hfl]
      exact ⟨inv_iovFree h2, .inl (keeps_release _ _)⟩
    · rw [if_neg hfl]
      exact ⟨h2, .inl rfl⟩

theorem migRead_ok : Fine c r (migRead w c m) := by
  unfold migRead
  dsimp only
  have h1 : Inv (use c m.inIov) (m.blocks ++ r) := by rw [hi]; exact inv_use h (inIov_mem hi r)
  by_cases hr : w.refuse = true
  · rw [if_pos hr]; exact ⟨h1, .inl rfl⟩
  rw [if_neg hr]
  cases w.memOut with
  | false =>
    rw [take_false]
    dsimp only
    rw [none_eta ho]
    exact ⟨h1, .inl rfl⟩
  | true =>
    have h2 := inv_take h1 true
    rw [take_true] at h2 ⊢
    dsimp only at h2 ⊢
    have h3 := inv_outIov (p := c.next) ho h2
    have h4 := inv_use h3 (b := c.next) (outIov_mem (m := { m with outIov := some c.next }) rfl r)
    obtain ⟨h5, k5⟩ := transfers_ok _ w.xfers _ h4
    have k5 : Keeps c _ := Keeps.trans (.inl rfl) k5
    have e : (use c m.inIov).next = c.next := rfl
    rw [e] at h5 k5 ⊢
    generalize transfers w.xfers (use _ (some c.next)) = d at h5 k5 ⊢
    by_cases hfl : w.fail = true
    · rw [if_pos hfl]
      exact ⟨inv_iovFree h5, k5.trans (.inl (keeps_release _ _))⟩
    · rw [if_neg hfl]
      exact ⟨inv_use h5 (b := c.next) (outIov_mem (m := { m with outIov := some c.next }) rfl r), k5.trans (.inl rfl)⟩

end

theorem handle_ok (w : Way) {c : Ctx} {m : Msg} {r : List Nat} (h : Inv c (m.blocks ++ r)) (hm : Raw m) :
    Fine c r (handle w c m) := by
  have plain : ∀ d : Ctx, Inv d (m.blocks ++ r) → Keeps c d → Fine c r (transfers w.xfers d, m) := by
    intro d hd k
    obtain ⟨h1, k1⟩ := transfers_ok _ w.xfers d hd
    exact ⟨h1, k.trans k1⟩
  have fd : ∀ d : Ctx, Inv d (m.blocks ++ r) → Inv (useIf d m.inFds) (m.blocks ++ r) := fun d hd =>
    inv_useIf hd (fun b hb => inFds_mem hb r)
  unfold handle
  rcases hm.body with hb | ⟨i, hi⟩
  · rw [hb]
    exact plain c h (.refl c)
  · have h1 : Inv (use c m.inIov) (m.blocks ++ r) := by rw [hi]; exact inv_use h (inIov_mem hi r)
    cases m.cmd with
    | map => exact plain _ (fd _ h1) (.inl (keeps_useIf _ _))
    | setIrqs => exact plain _ (fd _ h1) (.inl (keeps_useIf _ _))
    | migWrite => exact plain _ h1 (.inl rfl)
    | reset => exact plain c h (.refl c)
    | bad => exact ⟨h, .refl c⟩
    | regionInfo => exact regionInfo_ok h hm.iov hm.fds hi w
    | ioFds => exact ioFds_ok h hm.iov hm.fds hi w
    | featDma => exact featDma_ok h hm.iov hi w
    | migRead => exact migRead_ok h hm.iov hi w
    | unmap => exact answer_ok h hm.iov hi w
    | info => exact answer_ok h hm.iov hi w
    | irqInfo => exact answer_ok h hm.iov hi w
    | access => exact answer_ok h hm.iov hi w
    | featGet => exact answer_ok h hm.iov hi w
    | featSet => exact answer_ok h hm.iov hi w
    | featProbe => exact answer_ok h hm.iov hi w

/-! ## Replying and freeing -/

theorem doReply_ok (w : Way) {c : Ctx} {m : Msg} {r : List Nat} (h : Inv c (m.blocks ++ r)) :
    Inv (doReply w c m) (m.blocks ++ r) ∧ Keeps c (doReply w c m) := by
  have h1 := inv_use h (self_mem m r)
  unfold doReply
  by_cases hn : w.noReply = true
  · rw [if_pos hn]; exact ⟨h1, .inl rfl⟩
  rw [if_neg hn]
  cases w.memIov with
  | false => exact ⟨h1, .inl rfl⟩
  | true =>
    have h2 := inv_take h1 true
    rw [take_true] at h2 ⊢
    dsimp only at h2 ⊢
    have h2 := inv_use h2 (b := c.next) List.mem_cons_self
    have h3 := inv_useIf h2 (p := m.outIov) (fun b hb => List.mem_cons_of_mem _ (outIov_mem hb r))
    have h4 := inv_useIf h3 (p := m.outFds) (fun b hb => List.mem_cons_of_mem _ (outFds_mem hb r))
    have h5 := inv_release (p := some c.next) h4
    have e : (use c (some m.self)).next = c.next := rfl
    rw [e] at h5 ⊢
    have k5 : ∀ d : Ctx, d.pending = c.pending →
        (release (useIf (useIf (use d (some c.next)) m.outIov) m.outFds) (some c.next)).pending = c.pending := by
      intro d hd
      rw [keeps_release, keeps_useIf, keeps_useIf]; exact hd
    by_cases hl : w.lost = true
    · rw [if_pos hl]
      refine ⟨inv_resetCtx h5 w.busy, Keeps.trans ?_ (keeps_resetCtx w.busy _)⟩
      exact .inl (k5 _ rfl)
    · rw [if_neg hl]
      exact ⟨h5, .inl (k5 _ rfl)⟩

theorem freeMsg_ok {c : Ctx} {m : Msg} {r : List Nat} (h : Inv c (m.blocks ++ r)) :
    Inv (freeMsg c m) r ∧ (freeMsg c m).pending = c.pending := by
  have h1 := inv_use h (self_mem m r)
  have hp : (m.blocks ++ r).Perm (m.inIov.toList ++ (m.inFds.toList ++ (m.outFds.toList ++ (m.outIov.toList ++ ([m.self] ++ r))))) := by
    have e : m.inIov.toList ++ (m.inFds.toList ++ (m.outFds.toList ++ (m.outIov.toList ++ ([m.self] ++ r)))) =
        ((m.inIov.toList ++ (m.inFds.toList ++ (m.outFds.toList ++ m.outIov.toList))) ++ [m.self]) ++ r := by simp
    rw [e]
    exact (List.perm_append_singleton m.self _).symm.append_right r
  have h2 := inv_release (h1.perm hp)
  have h3 := inv_useIf h2 (p := m.inFds) (fun b hb => by simp [hb])
  have h4 := inv_release h3
  have h5 := inv_release h4
  have h6 := inv_release h5
  have h7 := inv_release (p := some m.self) h6
  refine ⟨h7, ?_⟩
  unfold freeMsg
  dsimp only
  rw [keeps_release, keeps_release, keeps_release, keeps_release, keeps_useIf, keeps_release, keeps_use]

theorem refused_ok (w : Way) {c : Ctx} {m : Msg} {r : List Nat} (h : Inv c (m.blocks ++ r)) :
    Inv (refused w c m) r ∧ Keeps c (refused w c m) := by
  obtain ⟨h1, k1⟩ := doReply_ok w h
  obtain ⟨h2, k2⟩ := freeMsg_ok h1
  exact ⟨h2, k1.trans (.inl k2)⟩

theorem handleRequest_ok (w : Way) {c : Ctx} {m : Msg} {r : List Nat} (h : Inv c (m.blocks ++ r)) (hm : Raw m) :
    Fine c r (handleRequest w c m) := by
  obtain ⟨h1, k1⟩ := handle_ok w (inv_use h (self_mem m r)) hm
  unfold handleRequest
  dsimp only
  by_cases hd : (handle w (use c (some m.self)) m).1.dead = true
  · rw [if_pos hd]; exact ⟨h1, Keeps.trans (.inl rfl) k1⟩
  · rw [if_neg hd]
    obtain ⟨h2, k2⟩ := doReply_ok w h1
    exact ⟨h2, Keeps.trans (.inl rfl) (k1.trans k2)⟩

/-! ## Calls -/

/-- The blocks that live are those of the pending request, and `r`. -/
structure Whole (c : Ctx) (r : List Nat) : Prop where
  inv : c.dead = false → Inv c (c.pending.blocks ++ r)
  any : ∃ l, Inv c l
  raw : ∀ m, c.pending = .msg m → Raw m

theorem Whole.of {c : Ctx} {r : List Nat} (h : Inv c (c.pending.blocks ++ r)) (hr : ∀ m, c.pending = .msg m → Raw m) : Whole c r :=
  ⟨fun _ => h, ⟨_, h⟩, hr⟩

theorem raw_keeps {c c' : Ctx} (k : Keeps c c') (h : ∀ m, c.pending = .msg m → Raw m) : ∀ m, c'.pending = .msg m → Raw m := by
  intro m hm
  rcases k with k | ⟨_, k⟩
  · exact h m (k ▸ hm)
  · rw [k] at hm; cases hm

/-- Something that keeps the other blocks. -/
theorem Whole.keep {c c' : Ctx} {r : List Nat} (h : Whole c r) (h1 : Inv c' (c.pending.blocks ++ r)) (k : Keeps c c') : Whole c' r :=
  .of (by rw [k.blocks]; exact h1) (raw_keeps k h.raw)

theorem allocMsg_ok (w : Way) {c : Ctx} {r : List Nat} (h : Inv c r) :
    (allocMsg w c).1.pending = c.pending ∧
      match (allocMsg w c).2 with
      | none => Inv (allocMsg w c).1 r
      | some m => Inv (allocMsg w c).1 (m.blocks ++ r) ∧ m.outIov = none ∧ m.outFds = none ∧ m.inIov = none ∧ m.cmd = w.cmd := by
  unfold allocMsg
  cases w.memMsg with
  | false => exact ⟨rfl, h⟩
  | true =>
    have h1 := inv_take h true
    rw [take_true] at h1 ⊢
    dsimp only at h1 ⊢
    have h2 := inv_use h1 (b := c.next) List.mem_cons_self
    by_cases hf : w.fds = true
    · rw [if_pos hf]
      cases w.memFds with
      | false =>
        rw [take_false]
        dsimp only
        exact ⟨rfl, inv_release (p := some c.next) h2⟩
      | true =>
        have h3 := inv_take h2 true
        rw [take_true] at h3 ⊢
        dsimp only at h3 ⊢
        have h4 := inv_use h3 (b := c.next + 1) List.mem_cons_self
        refine ⟨rfl, h4.perm ?_, rfl, rfl, rfl, rfl⟩
        exact List.Perm.swap _ _ _
    · rw [if_neg hf]
      exact ⟨rfl, h2, rfl, rfl, rfl, rfl⟩

theorem recvBody_ok (w : Way) {c : Ctx} {m : Msg} {r : List Nat} (h : Inv c (m.blocks ++ r)) (hi : m.inIov = none) :
    Inv (recvBody w c m).1 ((recvBody w c m).2.1.blocks ++ r) ∧ (recvBody w c m).1.pending = c.pending ∧
      (recvBody w c m).2.1.outIov = m.outIov ∧ (recvBody w c m).2.1.outFds = m.outFds ∧
      ((recvBody w c m).2.2 = true → ∃ p, (recvBody w c m).2.1.inIov = some p) := by
  unfold recvBody
  cases w.memBody with
  | false =>
    rw [take_false]
    dsimp only
    rw [noIn_eta hi]
    exact ⟨h, rfl, rfl, rfl, (fun hh => by cases hh)⟩
  | true =>
    have h1 := inv_take h true
    rw [take_true] at h1 ⊢
    dsimp only at h1 ⊢
    have h2 := inv_use h1 (b := c.next) List.mem_cons_self
    by_cases hr : w.recv = true
    · rw [if_pos hr]
      exact ⟨inv_inIov hi h2, rfl, rfl, rfl, fun _ => ⟨_, rfl⟩⟩
    · rw [if_neg hr]
      dsimp only
      rw [noIn_eta hi]
      exact ⟨inv_release (p := some c.next) h2, rfl, rfl, rfl, (fun hh => by cases hh)⟩

theorem runOnce_ok (w : Way) {c : Ctx} {r : List Nat} (h : Whole c r) : Whole (runOnce w c) r := by
  unfold runOnce
  by_cases hd : c.dead = true
  · rw [if_pos hd]; exact h
  rw [if_neg hd]
  by_cases hp : c.pending ≠ .none
  · rw [if_pos hp]; exact h
  rw [if_neg hp]
  have hp : c.pending = .none := by simpa using hp
  have h0 : Inv c (c.pending.blocks ++ r) := h.inv (by simpa using hd)
  have hr0 : Inv c r := by rw [hp] at h0; exact h0
  have done : ∀ d : Ctx, Inv d r → Keeps c d → Whole d r := by
    intro d hd k
    refine h.keep ?_ k
    rw [hp]; exact hd
  by_cases hh : w.header = false
  · rw [if_pos hh]
    by_cases hl : w.lost = true
    · rw [if_pos hl]; exact done _ (inv_resetCtx hr0 w.busy) (keeps_resetCtx w.busy c)
    · rw [if_neg hl]; exact h
  rw [if_neg hh]
  obtain ⟨ka, ha⟩ := allocMsg_ok w hr0
  generalize allocMsg w c = a at ka ha ⊢
  obtain ⟨d, om⟩ := a
  cases om with
  | none => exact done d ha (.inl ka)
  | some m =>
    dsimp only at ka ha ⊢
    obtain ⟨h1, ho, hf, hi, hcm⟩ := ha
    have h1 := inv_use h1 (self_mem m r)
    have k1 : (use d (some m.self)).pending = c.pending := ka
    generalize use d (some m.self) = d1 at h1 k1 ⊢
    by_cases hv : w.valid = false
    · rw [if_pos hv]
      obtain ⟨h2, k2⟩ := refused_ok w h1
      exact done _ h2 (Keeps.trans (.inl k1) k2)
    rw [if_neg hv]
    have hv : w.valid = true := by simpa using hv
    -- the payload
    have hb : ∀ o : Ctx × Msg × Bool, o = (if w.body = true then recvBody w d1 m else (d1, m, true)) →
        Inv o.1 (o.2.1.blocks ++ r) ∧ o.1.pending = c.pending ∧ (o.2.2 = true → Raw o.2.1) := by
      intro o ho'
      by_cases hb : w.body = true
      · rw [if_pos hb] at ho'
        subst ho'
        obtain ⟨g1, g2, g3, g4, g5⟩ := recvBody_ok w h1 hi
        exact ⟨g1, g2.trans k1, fun hg => ⟨g3.trans ho, g4.trans hf, .inr (g5 hg)⟩⟩
      · rw [if_neg hb] at ho'
        subst ho'
        refine ⟨h1, k1, fun _ => ⟨ho, hf, .inl ?_⟩⟩
        unfold Way.valid at hv
        have hb : w.body = false := by simpa using hb
        rw [hb] at hv
        dsimp only
        rw [hcm]
        simpa using (Bool.and_eq_true_iff.mp hv).2
    generalize ho' : (if w.body = true then recvBody w d1 m else (d1, m, true)) = o
    obtain ⟨g1, g2, g3⟩ := hb o ho'.symm
    by_cases hok : o.2.2 = false
    · rw [if_pos hok]
      obtain ⟨h2, k2⟩ := refused_ok w g1
      exact done _ h2 (Keeps.trans (.inl g2) k2)
    rw [if_neg hok]
    have hraw := g3 (by simpa using hok)
    by_cases hx : w.exec = false
    · rw [if_pos hx]
      obtain ⟨h2, k2⟩ := refused_ok w g1
      exact done _ h2 (Keeps.trans (.inl g2) k2)
    rw [if_neg hx]
    have serve : Whole (if (handleRequest w o.1 o.2.1).1.dead = true then (handleRequest w o.1 o.2.1).1
        else freeMsg (handleRequest w o.1 o.2.1).1 (handleRequest w o.1 o.2.1).2) r := by
      obtain ⟨h2, k2⟩ := handleRequest_ok w g1 hraw
      have k2 : Keeps c _ := Keeps.trans (.inl g2) k2
      by_cases hdd : (handleRequest w o.1 o.2.1).1.dead = true
      · rw [if_pos hdd]
        exact ⟨(fun hh => by rw [hdd] at hh; cases hh), ⟨_, h2⟩, raw_keeps k2 h.raw⟩
      · rw [if_neg hdd]
        obtain ⟨h3, k3⟩ := freeMsg_ok h2
        exact done _ h3 (k2.trans (.inl k3))
    cases w.quiet with
    | refused =>
      dsimp only
      obtain ⟨h2, k2⟩ := refused_ok w g1
      exact done _ h2 (Keeps.trans (.inl g2) k2)
    | deferred =>
      dsimp only
      exact .of (g1.same rfl rfl) (fun m' hm' => by cases hm'; exact hraw)
    | unneeded => exact serve
    | at_once => exact serve

theorem quiesced_ok (w : Way) (ok : Bool) {c : Ctx} {r : List Nat} (h : Whole c r) : Whole (deviceQuiesced w ok c) r := by
  unfold deviceQuiesced
  by_cases hd : c.dead = true
  · rw [if_pos hd]; exact h
  rw [if_neg hd]
  have h0 : Inv c (c.pending.blocks ++ r) := h.inv (by simpa using hd)
  cases hp : c.pending with
  | none => exact h
  | reset =>
    dsimp only
    rw [hp] at h0
    exact .of (h0.same rfl rfl) (fun m hm => by cases hm)
  | msg m =>
    dsimp only
    rw [hp] at h0
    have h0 : Inv c (m.blocks ++ r) := h0
    by_cases hok : ok = true
    · rw [if_pos hok]
      obtain ⟨h2, k2⟩ := handleRequest_ok w h0 (h.raw m hp)
      by_cases hdd : (handleRequest w c m).1.dead = true
      · rw [if_pos hdd]
        exact ⟨(fun hh => by rw [hdd] at hh; cases hh), ⟨_, h2⟩, raw_keeps k2 h.raw⟩
      · rw [if_neg hdd]
        exact .of ((freeMsg_ok h2).1.same rfl rfl) (fun m hm => by cases hm)
    · rw [if_neg hok]
      exact .of ((freeMsg_ok h0).1.same rfl rfl) (fun m hm => by cases hm)

theorem xfer_ok (x : Xfer) {c : Ctx} {r : List Nat} (h : Whole c r) : Whole (transfer x c) r := by
  by_cases hd : c.dead = true
  · unfold transfer
    rw [if_pos hd]; exact h
  · obtain ⟨h1, k1⟩ := transfer_ok x c _ (h.inv (by simpa using hd))
    exact h.keep h1 k1

theorem sendVersion_ok (ok : Bool) {c : Ctx} {p : Option Nat} {l : List Nat} (h : Inv c l) (hp : ∀ b, p = some b → b ∈ l) :
    Inv (sendVersion ok p c) l ∧ (sendVersion ok p c).pending = c.pending := by
  unfold sendVersion
  cases ok with
  | false => exact ⟨h, rfl⟩
  | true =>
    have h1 := inv_take h true
    rw [take_true] at h1 ⊢
    dsimp only at h1 ⊢
    have h2 := inv_use h1 (b := c.next) List.mem_cons_self
    have h3 := inv_useIf h2 (p := p) (fun b hb => List.mem_cons_of_mem _ (hp b hb))
    exact ⟨inv_release (p := some c.next) h3, by rw [keeps_release, keeps_useIf]; rfl⟩

/-- The version message is lost when no second socket can be made. -/
def Greet.leaks (g : Greet) : Bool := g.recv && g.body && g.memBody && g.whole && g.good && g.twin && !g.pair

theorem negotiate_ok (g : Greet) {c : Ctx} {l : List Nat} (h : Inv c l) :
    (∃ r, (g.leaks = false → r = []) ∧ Inv (negotiate g c) (l ++ r)) ∧ (negotiate g c).pending = c.pending := by
  have still : ∀ d : Ctx, Inv d l → d.pending = c.pending →
      (∃ r, (g.leaks = false → r = []) ∧ Inv d (l ++ r)) ∧ d.pending = c.pending := fun d hd k =>
    ⟨⟨[], fun _ => rfl, by rw [List.append_nil]; exact hd⟩, k⟩
  unfold negotiate
  by_cases h1 : g.recv = false
  · rw [if_pos h1]; exact still c h rfl
  rw [if_neg h1]
  by_cases hb : g.body = true
  · simp only [hb, if_true, true_and]
    have ht := inv_take h g.memBody
    cases hm : g.memBody with
    | false => exact still c h rfl
    | true =>
      rw [hm, take_true] at ht
      rw [take_true]
      dsimp only at ht ⊢
      generalize hd : ({ c with next := c.next + 1, tr := c.tr ++ [.alloc c.next] } : Ctx) = d at ht ⊢
      have hdp : d.pending = c.pending := by rw [← hd]
      have ht : Inv d (c.next :: l) := ht
      have hu := inv_use ht (b := c.next) List.mem_cons_self
      rw [if_neg (by simp)]
      by_cases hw : g.whole = false
      · rw [if_pos hw]
        exact still _ (inv_release (p := some c.next) hu) (by rw [keeps_release]; exact hdp)
      rw [if_neg hw]
      have eu : useIf d (some c.next) = use d (some c.next) := rfl
      rw [eu]
      have hup : (use d (some c.next)).pending = c.pending := hdp
      generalize use d (some c.next) = e at hu hup ⊢
      by_cases hg : g.good = false ∨ (some c.next = none)
      · rw [if_pos hg]
        obtain ⟨h2, k2⟩ := sendVersion_ok g.memIov (p := none) hu (fun b hb => by cases hb)
        exact still _ (inv_release (p := some c.next) h2) (by rw [keeps_release, k2, hup])
      rw [if_neg hg]
      by_cases hs : g.twin = true ∧ g.pair = false
      · rw [if_pos hs]
        refine ⟨⟨[c.next], ?_, hu.perm ?_⟩, hup⟩
        · intro hl
          exfalso
          have g1 : g.recv = true := by simpa using h1
          have g2 : g.whole = true := by simpa using hw
          have g3 : g.good = true := by
            by_contra hh
            exact hg (.inl (by simpa using hh))
          unfold Greet.leaks at hl
          rw [g1, hb, hm, g2, g3, hs.1, hs.2] at hl
          cases hl
        · exact (List.perm_append_singleton c.next l).symm
      rw [if_neg hs]
      cases g.memCaps with
      | false =>
        rw [take_false]
        dsimp only
        exact still _ (inv_release (p := some c.next) hu) (by rw [keeps_release]; exact hup)
      | true =>
        have h2 := inv_take hu true
        rw [take_true] at h2 ⊢
        dsimp only at h2 ⊢
        have h3 := inv_use h2 (b := c.next) (List.mem_cons_of_mem _ List.mem_cons_self)
        have h4 := inv_use h3 (b := e.next) List.mem_cons_self
        obtain ⟨h5, k5⟩ := sendVersion_ok g.memIov (p := some e.next) h4 (fun b hb => by cases hb; exact List.mem_cons_self)
        have h6 := inv_release (p := some e.next) h5
        have h7 := inv_release (p := some c.next) h6
        exact still _ h7 (by rw [keeps_release, keeps_release, k5]; exact hup)
  · have hb : g.body = false := by simpa using hb
    simp only [hb, if_false, Bool.false_eq_true, false_and]
    rw [if_pos (.inr trivial)]
    have e : useIf c none = c := rfl
    rw [e]
    obtain ⟨h2, k2⟩ := sendVersion_ok g.memIov (p := none) h (fun b hb => by cases hb)
    exact still _ h2 k2

/-! ## C96 -/

/-- The client's version message is not the one that is lost. -/
def Op.Tidy : Op → Prop
  | .attach g => g.leaks = false
  | _ => True

theorem step_ok (op : Op) {c : Ctx} {r : List Nat} (h : Whole c r) :
    ∃ r', (op.Tidy → r' = r) ∧ Whole (step c op) r' := by
  cases op with
  | run w => exact ⟨r, fun _ => rfl, runOnce_ok w h⟩
  | quiesced w ok => exact ⟨r, fun _ => rfl, quiesced_ok w ok h⟩
  | xfer x => exact ⟨r, fun _ => rfl, xfer_ok x h⟩
  | destroy => exact ⟨r, fun _ => rfl, (fun hh => by cases hh), h.any.imp fun l hl => hl.same rfl rfl, h.raw⟩
  | attach g =>
    by_cases hd : c.dead = true
    · refine ⟨r, fun _ => rfl, ?_⟩
      show Whole (attach g c) r
      unfold attach
      rw [if_pos hd]; exact h
    · obtain ⟨⟨q, hq, hi⟩, k⟩ := negotiate_ok g (h.inv (by simpa using hd))
      refine ⟨r ++ q, fun ht => by rw [hq ht, List.append_nil], ?_⟩
      show Whole (attach g c) (r ++ q)
      unfold attach
      rw [if_neg hd]
      exact .of (by rw [k, ← List.append_assoc]; exact hi) (fun m hm => h.raw m (k ▸ hm))

theorem run_ok (ops : List Op) : ∀ (c : Ctx) (r : List Nat), Whole c r →
    ∃ r', ((∀ op ∈ ops, op.Tidy) → r' = r) ∧ Whole (run c ops) r' := by
  induction ops with
  | nil => exact fun c r h => ⟨r, fun _ => rfl, h⟩
  | cons op ops ih =>
    intro c r h
    obtain ⟨r1, e1, h1⟩ := step_ok op h
    obtain ⟨r2, e2, h2⟩ := ih (step c op) r1 h1
    exact ⟨r2, fun ht => (e2 fun o ho => ht o (List.mem_cons_of_mem _ ho)).trans (e1 (ht op List.mem_cons_self)), h2⟩

theorem whole_init : Whole Ctx.init [] := .of inv_init (fun m hm => by cases hm)

/-- C96: whatever happens, no block is freed twice, used before it is allocated or after it is freed, and no null pointer is
used. -/
theorem C96_lifetimes (ops : List Op) : Proper (run Ctx.init ops).tr := by
  obtain ⟨r, _, h⟩ := run_ok ops Ctx.init [] whole_init
  obtain ⟨l, hl⟩ := h.any
  exact hl.ok

/-- C96: between calls, the blocks allocated and not freed are those of the request held back for a quiesce; so there are none if
there is no such request.  Exception: a version message that is lost. -/
theorem C96_account (ops : List Op) (ht : ∀ op ∈ ops, op.Tidy) (hd : (run Ctx.init ops).dead = false) (b : Nat) :
    Live (run Ctx.init ops).tr b ↔ ∃ m, (run Ctx.init ops).pending = .msg m ∧ b ∈ m.blocks := by
  obtain ⟨r, hr, h⟩ := run_ok ops Ctx.init [] whole_init
  cases hr ht
  have h1 := (h.inv hd).live b
  rw [List.append_nil] at h1
  rw [← h1]
  cases hp : (run Ctx.init ops).pending with
  | none => exact ⟨(fun hh => by cases hh), fun ⟨m, hm, _⟩ => by cases hm⟩
  | reset => exact ⟨(fun hh => by cases hh), fun ⟨m, hm, _⟩ => by cases hm⟩
  | msg m => exact ⟨fun hh => ⟨m, rfl, hh⟩, fun ⟨m', hm, hb⟩ => by cases hm; exact hb⟩

/-- C96: in particular, a context with nothing pending has as many frees as allocations behind it. -/
theorem C96_balance (ops : List Op) (ht : ∀ op ∈ ops, op.Tidy) (hd : (run Ctx.init ops).dead = false)
    (hp : ∀ m, (run Ctx.init ops).pending ≠ .msg m) (b : Nat) :
    (.alloc b ∈ (run Ctx.init ops).tr ↔ .free b ∈ (run Ctx.init ops).tr) := by
  obtain ⟨r, _, h⟩ := run_ok ops Ctx.init [] whole_init
  obtain ⟨l, hl⟩ := h.any
  refine ⟨fun ha => ?_, hl.freed b⟩
  by_contra hf
  obtain ⟨m, hm, _⟩ := (C96_account ops ht hd b).mp ⟨ha, hf⟩
  exact hp m hm

/-- C96: the context destroyed, everything has been freed but the blocks of a request that was held back: those are lost. -/
theorem C96_destroyed (ops : List Op) (ht : ∀ op ∈ ops, op.Tidy) (hd : (run Ctx.init ops).dead = false) (b : Nat) :
    Live (run Ctx.init (ops ++ [.destroy])).tr b ↔ ∃ m, (run Ctx.init ops).pending = .msg m ∧ b ∈ m.blocks := by
  have e : (run Ctx.init (ops ++ [.destroy])).tr = (run Ctx.init ops).tr := by
    unfold run
    rw [List.foldl_append]
    rfl
  rw [e]
  exact C96_account ops ht hd b

/-! ## Cases -/

/-- A request that takes the longest way. -/
def full (cmd : Cmd) : Way :=
  { header := true, fds := true, memMsg := true, memFds := true, memBody := true, memOut := true, memOutFds := true, memIov := true
    formed := true, body := true, recv := true, cmd, exec := true, quiet := .unneeded, refuse := false, fit := true, fail := false
    xfers := [{ early := false, mem := true, chunks := 2, lost := false, busy := false }], noReply := false, lost := false
    busy := false }

def hello : Greet :=
  { recv := true, body := true, memBody := true, whole := true, good := true, memIov := true, twin := true, pair := true
    memCaps := true }

/-- A conversation: a client connects, asks for a region's capabilities, writes a register during which the device reads memory,
has an unmap deferred; a reply finds the connection lost, and the device defers the reset. -/
def session : List Op :=
  [.attach hello, .run (full .regionInfo), .run (full .access), .run { full .featDma with fail := true },
    .run { full .unmap with quiet := .deferred }, .quiesced { full .unmap with xfers := [] } true,
    .run { full .info with lost := true, busy := true }]

example : (run Ctx.init session).dead = false ∧ (run Ctx.init session).pending = .reset ∧ (run Ctx.init session).next = 31 ∧
    (∀ op ∈ session, op.Tidy) ∧ ∀ b, .alloc b ∈ (run Ctx.init session).tr ↔ .free b ∈ (run Ctx.init session).tr := by
  have ht : ∀ op ∈ session, op.Tidy := by
    intro op hop
    simp only [session, List.mem_cons, List.not_mem_nil, or_false] at hop
    rcases hop with rfl | rfl | rfl | rfl | rfl | rfl | rfl
    · rfl
    all_goals trivial
  refine ⟨by decide +kernel, by decide +kernel, by decide +kernel, ht, ?_⟩
  exact C96_balance session ht (by decide +kernel) (fun m hm => by
    have : (run Ctx.init session).pending = .reset := by decide +kernel
    rw [this] at hm; cases hm)

/-- While the unmap is deferred its message, payload and descriptors live. -/
example : ∃ m, (run Ctx.init (session.take 5)).pending = .msg m ∧ m.blocks.length = 3 ∧
    ∀ b, Live (run Ctx.init (session.take 5)).tr b → b ∈ m.blocks := by
  refine ⟨_, rfl, rfl, fun b hb => ?_⟩
  obtain ⟨m, hm, h⟩ := (C96_account (session.take 5) (fun op hop => by
    have hop : op ∈ session.take 5 := hop
    simp only [session, List.take_succ_cons, List.take_zero, List.mem_cons, List.not_mem_nil, or_false] at hop
    rcases hop with rfl | rfl | rfl | rfl | rfl
    · rfl
    all_goals trivial) (by decide +kernel) b).mp hb
  cases hm
  exact h

/-- C96, the exceptions: the version message of a client is lost when the second socket it wants cannot be made, and a request held
back when the context is destroyed (its descriptors: `Server.C68_pending_leak`). -/
theorem C96_lost :
    (Live (run Ctx.init [.attach { hello with pair := false }, .run (full .info)]).tr 0 ∧
      (run Ctx.init [.attach { hello with pair := false }, .run (full .info)]).pending = .none ∧
      (run Ctx.init [.attach { hello with pair := false }, .run (full .info)]).dead = false) ∧
    ∀ b ∈ [3, 4, 5], Live (run Ctx.init [.attach hello, .run { full .unmap with quiet := .deferred }, .destroy]).tr b := by
  refine ⟨⟨⟨by decide +kernel, by decide +kernel⟩, by decide +kernel, by decide +kernel⟩, fun b hb => ?_⟩
  simp only [List.mem_cons, List.not_mem_nil, or_false] at hb
  rcases hb with rfl | rfl | rfl <;> exact ⟨by decide +kernel, by decide +kernel⟩

/-- A device that reads memory in a callback of a deferred request runs into an assertion (`lib/libvfio-user.c:2375`). -/
theorem C96_assert :
    (run Ctx.init [.attach hello, .run { full .reset with quiet := .deferred, xfers := [] }, .quiesced (full .reset) true]).dead =
      true := by decide +kernel

end Verif.Blocks
