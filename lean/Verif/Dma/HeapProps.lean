import Verif.Dma.Heap
import Verif.Dma.Props4

/-!
# Dirty bitmaps are freed once, or never

C94.  The table with pointers behaves as the table that holds its bitmaps: no pointer in it dangles, no block is freed twice or
used after it was freed.  What is not freed are the bitmaps of regions that are unmapped while logging is on. -/

namespace Verif.Dma
open Verif

/-- Two regions do not share a bitmap. -/
def Apart (a b : PRegion) : Prop := ∀ p, a.bitmap = some p → b.bitmap ≠ some p

/-- No dangling pointer, no shared block. -/
structure Owns (h : Heap) (rs : List PRegion) : Prop where
  live : ∀ r ∈ rs, ∀ p, r.bitmap = some p → ∃ b, h.blocks p = some b
  apart : rs.Pairwise Apart

/-- Names not handed out yet are not in use. -/
def Heap.Fresh (h : Heap) : Prop := ∀ p, h.next ≤ p → h.blocks p = none

/-- Number of bitmaps in a table. -/
def held (rs : List PRegion) : Nat := rs.countP (fun r => r.bitmap.isSome)

/-- Number of bitmaps in a table. -/
def bitmaps (c : Ctl) : Nat := c.regions.countP (fun r => r.dirty.isSome)

theorem held_cons (r : PRegion) (rs : List PRegion) : held (r :: rs) = held rs + (if r.bitmap.isSome then 1 else 0) := by
  unfold held; rw [List.countP_cons]

theorem held_append (a b : List PRegion) : held (a ++ b) = held a + held b := List.countP_append ..

theorem held_zero {rs : List PRegion} (h : ∀ r ∈ rs, r.bitmap = none) : held rs = 0 := by
  unfold held
  rw [List.countP_eq_zero]
  intro r hr
  simp [h r hr]

theorem Owns.nil (h : Heap) : Owns h [] := ⟨(fun _ hm => by cases hm), List.Pairwise.nil⟩

theorem Owns.sub {h : Heap} {a b : List PRegion} (ho : Owns h b) (hs : List.Sublist a b) : Owns h a :=
  ⟨fun r hr => ho.live r (hs.subset hr), ho.apart.sublist hs⟩

theorem Owns.lt {h : Heap} (hf : h.Fresh) {rs : List PRegion} (ho : Owns h rs) {r : PRegion} (hr : r ∈ rs) {p : Nat}
    (hp : r.bitmap = some p) : p < h.next := by
  obtain ⟨b, hb⟩ := ho.live r hr p hp
  rcases Nat.lt_or_ge p h.next with hl | hge
  · exact hl
  · rw [hf p hge] at hb
    cases hb

theorem Owns.congr {h h' : Heap} {rs : List PRegion} (ho : Owns h rs)
    (he : ∀ r ∈ rs, ∀ p, r.bitmap = some p → ∃ b, h'.blocks p = some b) : Owns h' rs := ⟨he, ho.apart⟩

theorem held_view {h : Heap} {rs : List PRegion} (ho : Owns h rs) :
    (rs.map (PRegion.view h)).countP (fun r => r.dirty.isSome) = held rs := by
  unfold held
  rw [List.countP_map]
  refine List.countP_congr (fun r hr => ?_)
  show (r.bitmap.bind h.blocks).isSome = true ↔ r.bitmap.isSome = true
  cases hb : r.bitmap with
  | none => rfl
  | some p =>
    obtain ⟨b, hbl⟩ := ho.live r hr p hb
    simp [hbl]

theorem view_none (h : Heap) {r : PRegion} (hb : r.bitmap = none) : r.view h = r.bare := by
  unfold PRegion.view PRegion.bare; rw [hb]; rfl

theorem view_nones (h : Heap) {rs : List PRegion} (hb : ∀ r ∈ rs, r.bitmap = none) :
    rs.map (PRegion.view h) = rs.map PRegion.bare :=
  List.map_congr_left (fun r hr => view_none h (hb r hr))

theorem view_congr {h h' : Heap} {rs : List PRegion}
    (he : ∀ r ∈ rs, ∀ p, r.bitmap = some p → h'.blocks p = h.blocks p) :
    rs.map (PRegion.view h') = rs.map (PRegion.view h) := by
  refine List.map_congr_left (fun r hr => ?_)
  unfold PRegion.view
  cases hb : r.bitmap with
  | none => rfl
  | some p => simp only [Option.bind_some, he r hr p hb]

/-! ## Removing -/

theorem premoveLoop_view (h : Heap) (u : Bool) (a s : Nat) : ∀ rs : List PRegion,
    removeLoop u a s (rs.map (PRegion.view h)) =
      (premoveLoop u a s rs).map (fun x => (x.1.map (PRegion.view h), x.2)) := by
  intro rs
  induction rs with
  | nil => rfl
  | cons r rs ih =>
    rw [List.map_cons]
    unfold removeLoop premoveLoop
    by_cases hc : r.info.base ≠ a ∨ r.info.len ≠ s
    · rw [if_pos hc, if_pos (show (r.view h).info.base ≠ a ∨ (r.view h).info.len ≠ s from hc), ih]
      cases premoveLoop u a s rs with
      | ok x => rfl
      | err e => rfl
      | fault f => rfl
    · rw [if_neg hc, if_neg (show ¬ ((r.view h).info.base ≠ a ∨ (r.view h).info.len ≠ s) from hc)]
      rw [show dropRegion u (r.view h) = dropRegion u r.bare from rfl]
      cases dropRegion u r.bare with
      | ok x => rfl
      | err e => rfl
      | fault f => rfl

theorem premoveLoop_sub (u : Bool) (a s : Nat) : ∀ rs rs' : List PRegion, ∀ ev,
    premoveLoop u a s rs = .ok (rs', ev) → List.Sublist rs' rs := by
  intro rs
  induction rs with
  | nil => intro rs' ev h; cases h
  | cons r rs ih =>
    intro rs' ev h
    unfold premoveLoop at h
    by_cases hc : r.info.base ≠ a ∨ r.info.len ≠ s
    · rw [if_pos hc] at h
      cases hp : premoveLoop u a s rs with
      | ok x =>
        rw [hp] at h
        cases h
        exact (ih x.1 x.2 hp).cons_cons r
      | err e => rw [hp] at h; cases h
      | fault f => rw [hp] at h; cases h
    · rw [if_neg hc] at h
      cases hp : dropRegion u r.bare with
      | ok x => rw [hp] at h; cases h; exact List.sublist_cons_self r _
      | err e => rw [hp] at h; cases h
      | fault f => rw [hp] at h; cases h

theorem dropAll_view (h : Heap) (u : Bool) : ∀ rs : List PRegion,
    dropAll u (rs.map (PRegion.view h)) = dropAll u (rs.map PRegion.bare) := by
  intro rs
  induction rs with
  | nil => rfl
  | cons r rs ih =>
    rw [List.map_cons, List.map_cons]
    unfold dropAll
    rw [ih, show dropRegion u (r.view h) = dropRegion u r.bare from rfl]

/-! ## Clearing -/

theorem Heap.free_ok {h : Heap} {p : Nat} {b : List Byte} (hb : h.blocks p = some b) :
    h.free (some p) = .ok { h with blocks := fun q => if q = p then none else h.blocks q, frees := h.frees + 1 } := by
  unfold Heap.free; simp only [hb]

theorem pclear_spec : ∀ (n : Nat) (h : Heap) (rs : List PRegion), Owns h rs → h.Fresh →
    ∃ h', pclear n h rs = .ok (h', (rs.take n).map PRegion.cleared ++ rs.drop n) ∧ h'.Fresh ∧ h'.allocs = h.allocs ∧
      h'.next = h.next ∧ h'.frees = h.frees + held (rs.take n) ∧ (∀ q, h'.blocks q = h.blocks q ∨ ∃ r ∈ rs.take n, r.bitmap = some q) ∧
      (∀ r ∈ rs.drop n, ∀ p, r.bitmap = some p → h'.blocks p = h.blocks p) := by
  intro n
  induction n with
  | zero =>
    intro h rs _ hf
    exact ⟨h, rfl, hf, rfl, rfl, rfl, fun q => .inl rfl, fun _ _ _ _ => rfl⟩
  | succ n ih =>
    intro h rs ho hf
    cases rs with
    | nil => exact ⟨h, rfl, hf, rfl, rfl, rfl, fun q => .inl rfl, fun _ _ _ _ => rfl⟩
    | cons r rs =>
      have hsub := ho.sub (List.sublist_cons_self r rs)
      have hap := (List.pairwise_cons.mp ho.apart).1
      cases hb : r.bitmap with
      | none =>
        obtain ⟨h', e1, e2, e3, e4, e5, e6, e7⟩ := ih h rs hsub hf
        refine ⟨h', ?_, e2, e3, e4, ?_, ?_, e7⟩
        · unfold pclear
          rw [hb]
          simp only [Heap.free, e1, List.take_succ_cons, List.map_cons, List.drop_succ_cons, List.cons_append]
        · rw [e5, List.take_succ_cons, held_cons, hb]; rfl
        · intro q
          rcases e6 q with hq | ⟨x, hx, hxq⟩
          · exact .inl hq
          · exact .inr ⟨x, List.mem_cons_of_mem _ hx, hxq⟩
      | some p =>
        obtain ⟨b, hbl⟩ := ho.live r (List.mem_cons_self ..) p hb
        have hfree := Heap.free_ok hbl
        have hne : ∀ x ∈ rs, ∀ q, x.bitmap = some q → q ≠ p := by
          intro x hx q hq hqp
          subst hqp
          exact hap x hx q hb hq
        have hown : Owns { h with blocks := fun q => if q = p then none else h.blocks q, frees := h.frees + 1 } rs := by
          refine hsub.congr (fun x hx q hq => ?_)
          obtain ⟨b', hb'⟩ := hsub.live x hx q hq
          exact ⟨b', by show (if q = p then none else h.blocks q) = some b'; rw [if_neg (hne x hx q hq)]; exact hb'⟩
        have hfr : Heap.Fresh { h with blocks := fun q => if q = p then none else h.blocks q, frees := h.frees + 1 } := by
          intro q hq
          show (if q = p then none else h.blocks q) = none
          by_cases hqp : q = p
          · rw [if_pos hqp]
          · rw [if_neg hqp]; exact hf q hq
        obtain ⟨h', e1, e2, e3, e4, e5, e6, e7⟩ := ih _ rs hown hfr
        refine ⟨h', ?_, e2, e3, e4, ?_, ?_, ?_⟩
        · unfold pclear
          rw [hb, hfree]
          simp only [e1, List.take_succ_cons, List.map_cons, List.drop_succ_cons, List.cons_append]
        · rw [e5, List.take_succ_cons, held_cons, hb]
          show h.frees + 1 + _ = h.frees + (_ + 1)
          omega
        · intro q
          by_cases hqp : q = p
          · subst hqp
            exact .inr ⟨r, List.mem_cons_self .., hb⟩
          · rcases e6 q with hq | ⟨x, hx, hxq⟩
            · left; rw [hq]; show (if q = p then none else h.blocks q) = _; rw [if_neg hqp]
            · exact .inr ⟨x, List.mem_cons_of_mem _ hx, hxq⟩
        · intro x hx q hq
          rw [e7 x hx q hq]
          show (if q = p then none else h.blocks q) = _
          rw [if_neg (hne x (List.mem_of_mem_drop hx) q hq)]

/-! ## Starting -/

theorem Heap.alloc_fresh {h : Heap} (hf : h.Fresh) (b : List Byte) : (h.alloc b).Fresh := by
  intro q hq
  have hq' : h.next + 1 ≤ q := hq
  show (if q = h.next then some b else h.blocks q) = none
  rw [if_neg (by omega)]
  exact hf q (by omega)

theorem Heap.alloc_old {h : Heap} {b : List Byte} {q : Nat} (hq : q < h.next) : (h.alloc b).blocks q = h.blocks q := by
  show (if q = h.next then some b else h.blocks q) = _
  rw [if_neg (by omega)]

theorem Heap.alloc_new (h : Heap) (b : List Byte) : (h.alloc b).blocks h.next = some b := by
  show (if h.next = h.next then some b else h.blocks h.next) = _
  rw [if_pos rfl]

theorem pstartOn_view (ca : Bool) (h : Heap) (r : PRegion) (pg : Nat) :
    startOnRegion ca (r.view h) pg = (pstartOn ca h r pg).map (fun x => x.2.view x.1) := by
  unfold startOnRegion pstartOn
  rw [show (r.view h).fd = r.fd from rfl, show (r.view h).info = r.info from rfl]
  cases hfd : r.fd with
  | none => rfl
  | some x =>
    cases getBitmapSize r.info.len pg with
    | err e => rfl
    | fault f => rfl
    | ok n =>
      cases ca with
      | false => rfl
      | true =>
        show Res.ok _ = Res.ok _
        congr 1
        show Region.mk r.info (some x) r.offset _ = Region.mk r.info (some x) r.offset _
        congr 1
        exact (h.alloc_new _).symm

theorem pstartOn_ok {ca : Bool} {h h' : Heap} {r r' : PRegion} {pg : Nat} (he : pstartOn ca h r pg = .ok (h', r')) :
    ∃ b, h' = h.alloc b ∧ r' = { r with bitmap := some h.next } := by
  unfold pstartOn at he
  cases hfd : r.fd with
  | none => rw [hfd] at he; cases he
  | some x =>
    rw [hfd] at he
    cases hg : getBitmapSize r.info.len pg with
    | err e => rw [hg] at he; cases he
    | fault f => rw [hg] at he; cases he
    | ok n =>
      rw [hg] at he
      cases ca with
      | false => cases he
      | true => cases he; exact ⟨_, rfl, rfl⟩

/-- What the loop of `dma_controller_dirty_page_logging_start` leaves behind. -/
structure Started (h : Heap) (rs : List PRegion) (h' : Heap) (rs' : List PRegion) : Prop where
  fresh : h'.Fresh
  next : h.next ≤ h'.next
  old : ∀ p, p < h.next → h'.blocks p = h.blocks p
  new : ∀ r ∈ rs', ∀ p, r.bitmap = some p → h.next ≤ p ∧ p < h'.next
  owns : Owns h' rs'
  frees : h'.frees = h.frees
  allocs : h'.allocs = h.allocs + held rs'
  base : rs'.map PRegion.cleared = rs

theorem cleared_none {r : PRegion} (h : r.bitmap = none) : r.cleared = r := by
  cases r; simp only at h; subst h; rfl

theorem cleared_nones {rs : List PRegion} (h : ∀ r ∈ rs, r.bitmap = none) : rs.map PRegion.cleared = rs := by
  exact (List.map_congr_left (fun r hr => cleared_none (h r hr))).trans (List.map_id' rs)

theorem Started.idle {h : Heap} (hf : h.Fresh) {rs : List PRegion} (hn : ∀ r ∈ rs, r.bitmap = none) : Started h rs h rs :=
  { fresh := hf, next := Nat.le_refl _, old := fun _ _ => rfl
    new := fun r hr p hp => by rw [hn r hr] at hp; cases hp
    owns := ⟨(fun r hr p hp => by rw [hn r hr] at hp; cases hp),
      List.Pairwise.imp_of_mem (fun {a b} ha _ _ p hp => by rw [hn a ha] at hp; cases hp)
        (List.pairwise_of_forall (R := fun _ _ => True) fun _ _ => trivial)⟩
    frees := rfl, allocs := by rw [held_zero hn, Nat.add_zero]
    base := cleared_nones hn }

theorem Started.skip {h h' : Heap} {rs rs' : List PRegion} (s : Started h rs h' rs') {r : PRegion} (hr : r.bitmap = none) :
    Started h (r :: rs) h' (r :: rs') :=
  { fresh := s.fresh, next := s.next, old := s.old, frees := s.frees
    new := fun x hx p hp => by
      rcases List.mem_cons.mp hx with rfl | hx
      · rw [hr] at hp; cases hp
      · exact s.new x hx p hp
    owns := ⟨(fun x hx p hp => by
        rcases List.mem_cons.mp hx with rfl | hx
        · rw [hr] at hp; cases hp
        · exact s.owns.live x hx p hp),
      List.pairwise_cons.mpr ⟨(fun x _ p hp => by rw [hr] at hp; cases hp), s.owns.apart⟩⟩
    allocs := by rw [held_cons, hr, s.allocs]; rfl
    base := by rw [List.map_cons, s.base, cleared_none hr] }

theorem Started.more {h h' : Heap} {rs rs' : List PRegion} {b : List Byte} (s : Started (h.alloc b) rs h' rs') {r : PRegion}
    (hr : r.bitmap = none) : Started h (r :: rs) h' ({ r with bitmap := some h.next } :: rs') := by
  have hnx : h.next + 1 ≤ h'.next := s.next
  refine { fresh := s.fresh, next := by omega, old := ?_, frees := s.frees, new := ?_, owns := ⟨?_, ?_⟩, allocs := ?_, base := ?_ }
  · intro p hp
    rw [s.old p (show p < h.next + 1 by omega), Heap.alloc_old hp]
  · intro x hx p hp
    rcases List.mem_cons.mp hx with rfl | hx
    · cases hp; exact ⟨Nat.le_refl _, by omega⟩
    · have h1 : h.next + 1 ≤ p := (s.new x hx p hp).1
      exact ⟨by omega, (s.new x hx p hp).2⟩
  · intro x hx p hp
    rcases List.mem_cons.mp hx with rfl | hx
    · cases hp
      exact ⟨b, by rw [s.old _ (show h.next < h.next + 1 by omega), Heap.alloc_new]⟩
    · exact s.owns.live x hx p hp
  · refine List.pairwise_cons.mpr ⟨fun x hx p hp hxp => ?_, s.owns.apart⟩
    cases hp
    have h1 : h.next + 1 ≤ h.next := (s.new x hx _ hxp).1
    omega
  · rw [s.allocs, held_cons]
    show h.allocs + 1 + _ = h.allocs + (_ + 1)
    omega
  · rw [List.map_cons, s.base]
    congr 1
    exact cleared_none hr

theorem pstartLoop_spec (ca : Nat → Bool) (pg : Nat) : ∀ (rs : List PRegion) (i : Nat) (h : Heap), h.Fresh →
    (∀ r ∈ rs, r.bitmap = none) → ∀ h' rs' f, pstartLoop ca pg i h rs = (h', rs', f) →
    Started h rs h' rs' ∧
    (match f with
      | none => startLoop ca pg i (rs.map PRegion.bare) = .ok (rs'.map (PRegion.view h'))
      | some (n, e) => i ≤ n ∧ n = startFailAt ca pg i (rs.map PRegion.bare) ∧
          (∀ r ∈ rs'.drop (n - i), r.bitmap = none) ∧ e ≠ .ok () ∧
          startLoop ca pg i (rs.map PRegion.bare) = e.map (fun _ => [])) := by
  intro rs
  induction rs with
  | nil =>
    intro i h hf hn h' rs' f he
    cases he
    exact ⟨Started.idle hf hn, rfl⟩
  | cons r rs ih =>
    intro i h hf hn h' rs' f he
    have hr := hn r (List.mem_cons_self ..)
    have hn' : ∀ x ∈ rs, x.bitmap = none := fun x hx => hn x (List.mem_cons_of_mem _ hx)
    rw [List.map_cons]
    unfold pstartLoop at he
    unfold startLoop startFailAt
    rw [show r.bare.fd = r.fd from rfl]
    cases hfd : r.fd with
    | none =>
      rw [hfd] at he
      obtain ⟨s, hrest⟩ := ih (i + 1) h hf hn' _ _ _ rfl
      cases he
      refine ⟨s.skip hr, ?_⟩
      cases hx : (pstartLoop ca pg (i + 1) h rs).2.2 with
      | none =>
        rw [hx] at hrest
        dsimp only at hrest ⊢
        rw [hrest, List.map_cons, view_none _ hr]
      | some y =>
        rw [hx] at hrest
        obtain ⟨n, e⟩ := y
        dsimp only at hrest ⊢
        obtain ⟨a1, a2, a3, a4, a5⟩ := hrest
        refine ⟨by omega, a2, ?_, a4, ?_⟩
        · rw [show n - i = (n - (i + 1)) + 1 by omega, List.drop_succ_cons]; exact a3
        · rw [a5]
          cases e with
          | ok u => exact absurd rfl a4
          | err e => rfl
          | fault e => rfl
    | some x =>
      rw [hfd] at he
      have hv := pstartOn_view (ca i) h r pg
      rw [view_none h hr] at hv
      dsimp only at he ⊢
      rw [hv]
      cases hp : pstartOn (ca i) h r pg with
      | ok y =>
        obtain ⟨h1, r1⟩ := y
        rw [hp] at he
        obtain ⟨b, rfl, rfl⟩ := pstartOn_ok hp
        obtain ⟨s, hrest⟩ := ih (i + 1) (h.alloc b) (Heap.alloc_fresh hf b) hn' _ _ _ rfl
        cases he
        refine ⟨s.more hr, ?_⟩
        have hview : PRegion.view (h.alloc b) { r with bitmap := some h.next } =
            PRegion.view (pstartLoop ca pg (i + 1) (h.alloc b) rs).1 { r with bitmap := some h.next } := by
          unfold PRegion.view
          simp only [Option.bind_some]
          rw [s.old _ (show h.next < h.next + 1 by omega)]
        cases hx : (pstartLoop ca pg (i + 1) (h.alloc b) rs).2.2 with
        | none =>
          rw [hx] at hrest
          dsimp only [Res.map] at hrest ⊢
          rw [hrest, List.map_cons, hview]
        | some y =>
          rw [hx] at hrest
          obtain ⟨n, e⟩ := y
          dsimp only [Res.map] at hrest ⊢
          obtain ⟨a1, a2, a3, a4, a5⟩ := hrest
          refine ⟨by omega, a2, ?_, a4, ?_⟩
          · rw [show n - i = (n - (i + 1)) + 1 by omega, List.drop_succ_cons]; exact a3
          · rw [a5]
            cases e with
            | ok u => exact absurd rfl a4
            | err e => rfl
            | fault e => rfl
      | err e =>
        rw [hp] at he
        cases he
        rw [cleared_none hr]
        refine ⟨Started.idle hf hn, Nat.le_refl _, rfl, ?_, (fun h => by cases h), rfl⟩
        rw [Nat.sub_self]; exact hn
      | fault f =>
        rw [hp] at he
        cases he
        refine ⟨Started.idle hf hn, Nat.le_refl _, rfl, ?_, (fun h => by cases h), rfl⟩
        rw [Nat.sub_self]; exact hn

/-! ## Translating does not look at bitmaps -/

theorem splitInner_view (h : Heap) (m : Nat) (w : Bool) (i : Nat) (r : PRegion) : ∀ (n : Nat) (s : SplitSt),
    splitInner m w i (r.view h) n s = splitInner m w i r.bare n s := by
  intro n
  induction n with
  | zero => intro s; rfl
  | succ n ih =>
    intro s
    unfold splitInner
    rw [show (r.view h).info = r.bare.info from rfl, show (r.view h).end64 = r.bare.end64 from rfl,
      show initSg (r.view h) = initSg r.bare from rfl]
    simp only [ih]

theorem splitFor_view (h : Heap) (m : Nat) (w : Bool) : ∀ (rs : List PRegion) (i : Nat) (s : SplitSt),
    splitFor m w i (rs.map (PRegion.view h)) s = splitFor m w i (rs.map PRegion.bare) s := by
  intro rs
  induction rs with
  | nil => intro i s; rfl
  | cons r rs ih =>
    intro i s
    rw [List.map_cons, List.map_cons]
    unfold splitFor
    rw [splitInner_view]
    cases splitInner m w i r.bare (s.len + 1) s with
    | cont s' => exact ih _ _
    | out s' => rfl
    | err e => rfl
    | diverge => rfl

theorem splitOuter_view (h : Heap) (m : Nat) (w : Bool) (rs : List PRegion) : ∀ (n : Nat) (s : SplitSt),
    splitOuter m w (rs.map (PRegion.view h)) n s = splitOuter m w (rs.map PRegion.bare) n s := by
  intro n
  induction n with
  | zero => intro s; rfl
  | succ n ih =>
    intro s
    unfold splitOuter
    simp only [splitFor_view, ih]

theorem addrToSgl_view (h : Heap) (c : PCtl) (hint a l m : Nat) (w : Bool) :
    addrToSgl (c.view h) hint a l m w = addrToSgl c.bare hint a l m w := by
  have hs : slowPath (c.view h) hint a l m w = slowPath c.bare hint a l m w := by
    unfold slowPath addrSgSplit
    rw [show (c.view h).regions = c.regions.map (PRegion.view h) from rfl,
      show c.bare.regions = c.regions.map PRegion.bare from rfl, splitOuter_view]
  unfold addrToSgl
  rw [hs, show (c.view h).regions = c.regions.map (PRegion.view h) from rfl,
    show c.bare.regions = c.regions.map PRegion.bare from rfl, List.getElem?_map, List.getElem?_map]
  cases c.regions[hint]? with
  | none => rfl
  | some r => rfl

theorem scan_view (h : Heap) (os : OS) (a s : Nat) (fd : Option Fd) (off : Nat) (prot : Prot) : ∀ (rs : List PRegion) (i : Nat),
    scan os a s fd off prot i (rs.map (PRegion.view h)) = scan os a s fd off prot i (rs.map PRegion.bare) := by
  intro rs
  induction rs with
  | nil => intro i; rfl
  | cons r rs ih =>
    intro i
    rw [List.map_cons, List.map_cons]
    unfold scan
    rw [ih]
    rfl

/-! ## Writing a bitmap -/

theorem view_store {h : Heap} {rs : List PRegion} (ho : Owns h rs) {i : Nat} {r : PRegion} (hr : rs[i]? = some r) {p : Nat}
    (hp : r.bitmap = some p) (b : List Byte) :
    rs.map (PRegion.view (h.store p b)) = (rs.map (PRegion.view h)).set i { r.view h with dirty := some b } := by
  apply List.ext_getElem?
  intro j
  rw [List.getElem?_map, List.getElem?_set, List.getElem?_map, List.length_map]
  by_cases hij : i = j
  · subst hij
    have hi : i < rs.length := by
      rcases Nat.lt_or_ge i rs.length with hl | hge
      · exact hl
      · rw [List.getElem?_eq_none hge] at hr; cases hr
    rw [if_pos rfl, if_pos hi, hr]
    simp only [Option.map_some, Option.some.injEq]
    unfold PRegion.view
    rw [hp]
    simp [Heap.store]
  · rw [if_neg hij]
    cases hj : rs[j]? with
    | none => rfl
    | some x =>
      simp only [Option.map_some, Option.some.injEq]
      unfold PRegion.view
      cases hx : x.bitmap with
      | none => rfl
      | some q =>
        have hq : q ≠ p := by
          intro hqp
          subst hqp
          obtain ⟨hi, ei⟩ := List.getElem?_eq_some_iff.mp hr
          obtain ⟨hjl, ej⟩ := List.getElem?_eq_some_iff.mp hj
          rcases Nat.lt_or_gt_of_ne hij with hlt | hgt
          · have := List.pairwise_iff_getElem.mp ho.apart i j hi hjl hlt
            rw [ei, ej] at this
            exact this q hp hx
          · have := List.pairwise_iff_getElem.mp ho.apart j i hjl hi hgt
            rw [ei, ej] at this
            exact this q hx hp
        simp [Heap.store, hq]

theorem store_owns {h : Heap} {rs : List PRegion} (ho : Owns h rs) (p : Nat) (b : List Byte) : Owns (h.store p b) rs := by
  refine ho.congr (fun r hr q hq => ?_)
  show ∃ b', (if q = p then some b else h.blocks q) = some b'
  by_cases hqp : q = p
  · exact ⟨b, if_pos hqp⟩
  · rw [if_neg hqp]; exact ho.live r hr q hq

theorem store_fresh {h : Heap} (hf : h.Fresh) {p : Nat} {b b' : List Byte} (hb : h.blocks p = some b') : (h.store p b).Fresh := by
  intro q hq
  show (if q = p then some b else h.blocks q) = none
  rw [if_neg]
  · exact hf q hq
  · intro hqp
    subst hqp
    rw [hf q hq] at hb
    cases hb

/-- Bitmap contents changed, nothing else. -/
structure Wrote (h h' : Heap) (c : PCtl) : Prop where
  fresh : h'.Fresh
  owns : Owns h' c.regions
  allocs : h'.allocs = h.allocs
  frees : h'.frees = h.frees

theorem Wrote.refl {h : Heap} {c : PCtl} (hf : h.Fresh) (ho : Owns h c.regions) : Wrote h h c := ⟨hf, ho, rfl, rfl⟩

theorem pmark_spec (c : PCtl) : ∀ (sgl : List Sg) (h : Heap), h.Fresh → Owns h c.regions →
    (sglMark (c.view h) sgl = (pmark c h sgl).map (fun h' => c.view h')) ∧
    ∀ h', pmark c h sgl = .ok h' → Wrote h h' c := by
  intro sgl
  induction sgl with
  | nil =>
    intro h hf ho
    exact ⟨rfl, fun h' he => by cases he; exact Wrote.refl hf ho⟩
  | cons sg sgl ih =>
    intro h hf ho
    unfold sglMark pmark
    rw [show (c.view h).regions = c.regions.map (PRegion.view h) from rfl, List.getElem?_map,
      show (c.view h).dirtyPgsize = c.dirtyPgsize from rfl]
    cases hr : c.regions[sg.region]? with
    | none => exact ⟨rfl, fun h' he => by cases he; exact Wrote.refl hf ho⟩
    | some r =>
      dsimp only [Option.map_some]
      by_cases hw : sg.writeable = true ∧ c.dirtyPgsize > 0
      · rw [if_pos hw, if_pos hw]
        unfold markDirty
        rw [show (r.view h).dirty = r.bitmap.bind h.blocks from rfl]
        cases hb : r.bitmap with
        | none => exact ⟨rfl, fun h' he => by cases he⟩
        | some p =>
          obtain ⟨bm, hbm⟩ := ho.live r (List.mem_of_getElem? hr) p hb
          rw [Option.bind_some]
          dsimp only
          rw [hbm]
          dsimp only
          cases markLoop (pgStart sg.offset c.dirtyPgsize) (pgEnd sg.offset sg.length c.dirtyPgsize)
              (markEnd (pgEnd sg.offset sg.length c.dirtyPgsize) - markIndex (pgStart sg.offset c.dirtyPgsize))
              (markIndex (pgStart sg.offset c.dirtyPgsize)) bm with
          | err e => exact ⟨rfl, fun h' he => by cases he⟩
          | fault f => exact ⟨rfl, fun h' he => by cases he⟩
          | ok bm' =>
            obtain ⟨i1, i2⟩ := ih (h.store p bm') (store_fresh hf hbm) (store_owns ho p bm')
            have hv : ({ c.view h with
                regions := (c.regions.map (PRegion.view h)).set sg.region ({ r.view h with dirty := some bm' } : Region) } : Ctl) =
                c.view (h.store p bm') := by
              unfold PCtl.view
              rw [view_store ho hr hb]
            dsimp only
            refine ⟨?_, fun h' he => ?_⟩
            · exact Eq.trans (congrArg (fun x => sglMark x sgl) hv) i1
            · have := i2 h' he
              exact ⟨this.fresh, this.owns, this.allocs, this.frees⟩
      · rw [if_neg hw, if_neg hw]
        exact ih h hf ho

theorem pget_spec (c : PCtl) (h : Heap) (hf : h.Fresh) (ho : Owns h c.regions) (hint a l pg n : Nat) (out : List Byte) :
    dirtyPageGet (c.view h) hint a l pg n out =
      (c.view (pget h c hint a l pg n out).1, (pget h c hint a l pg n out).2) ∧
    Wrote h (pget h c hint a l pg n out).1 c := by
  have hw := Wrote.refl hf ho
  unfold dirtyPageGet pget
  rw [addrToSgl_view, show (c.view h).dirtyPgsize = c.dirtyPgsize from rfl,
    show (c.view h).regions = c.regions.map (PRegion.view h) from rfl]
  cases hx : (addrToSgl c.bare hint a l 1 false).1 with
  | err e => exact ⟨rfl, hw⟩
  | fault f => exact ⟨rfl, hw⟩
  | more x => exact ⟨rfl, hw⟩
  | ok sgl =>
    match sgl with
    | [] => exact ⟨rfl, hw⟩
    | _ :: _ :: _ => exact ⟨rfl, hw⟩
    | [sg] =>
      dsimp only
      by_cases h1 : sg.dmaAddr ≠ a ∨ sg.length ≠ l
      · rw [if_pos h1, if_pos h1]; exact ⟨rfl, hw⟩
      rw [if_neg h1, if_neg h1]
      by_cases h2 : c.dirtyPgsize = 0
      · rw [if_pos h2, if_pos h2]; exact ⟨rfl, hw⟩
      rw [if_neg h2, if_neg h2]
      by_cases h3 : badClientPg pg = true
      · rw [if_pos h3, if_pos h3]; exact ⟨rfl, hw⟩
      rw [if_neg h3, if_neg h3]
      cases getBitmapSize l c.dirtyPgsize with
      | err e => exact ⟨rfl, hw⟩
      | fault f => exact ⟨rfl, hw⟩
      | ok ss =>
        cases getBitmapSize l pg with
        | err e => exact ⟨rfl, hw⟩
        | fault f => exact ⟨rfl, hw⟩
        | ok cs =>
          dsimp only
          by_cases h4 : n ≠ cs
          · rw [if_pos h4, if_pos h4]; exact ⟨rfl, hw⟩
          rw [if_neg h4, if_neg h4, List.getElem?_map]
          cases hr : c.regions[sg.region]? with
          | none => exact ⟨rfl, hw⟩
          | some r =>
            dsimp only [Option.map_some]
            rw [show (r.view h).fd = r.fd from rfl, show (r.view h).dirty = r.bitmap.bind h.blocks from rfl]
            cases hfd : r.fd with
            | none => exact ⟨rfl, hw⟩
            | some x =>
              cases hb : r.bitmap with
              | none => exact ⟨rfl, hw⟩
              | some p =>
                obtain ⟨bm, hbm⟩ := ho.live r (List.mem_of_getElem? hr) p hb
                rw [Option.bind_some]
                dsimp only
                rw [hbm]
                dsimp only
                cases getBits c.dirtyPgsize pg ss cs bm out with
                | err e => exact ⟨rfl, hw⟩
                | fault f => exact ⟨rfl, hw⟩
                | ok y =>
                  dsimp only
                  refine ⟨?_, store_fresh hf hbm, store_owns ho p _, rfl, rfl⟩
                  have hv := view_store ho hr hb y.1
                  unfold PCtl.view
                  rw [hv]
                  congr 3
                  unfold PRegion.view
                  rw [hfd, hb]

/-! ## One step -/

/-- A table with pointers on a heap that agrees with them. -/
structure Kempt (h : Heap) (c : PCtl) : Prop where
  fresh : h.Fresh
  owns : Owns h c.regions
  off : c.dirtyPgsize = 0 → ∀ r ∈ c.regions, r.bitmap = none

/-- The step of the table with pointers is that of the table that holds its bitmaps, and the books balance but for `lost`
blocks. -/
structure Follows (h : Heap) (c : PCtl) (lost : Nat) (a : Ctl × Reply × List Ev) (x : Heap × PCtl × Reply × List Ev) : Prop where
  sound : Kempt x.1 x.2.1
  same : a = (x.2.1.view x.1, x.2.2)
  count : x.1.allocs + h.frees + held c.regions = h.allocs + x.1.frees + held x.2.1.regions + lost

theorem Follows.idle {h : Heap} {c : PCtl} (hs : Kempt h c) (r : Reply) (ev : List Ev) :
    Follows h c 0 (c.view h, r, ev) (h, c, r, ev) := ⟨hs, rfl, rfl⟩

theorem Follows.wrote {h h' : Heap} {c : PCtl} (hs : Kempt h c) (hw : Wrote h h' c) (r : Reply) (ev : List Ev) :
    Follows h c 0 (c.view h', r, ev) (h', c, r, ev) :=
  ⟨⟨hw.fresh, hw.owns, hs.off⟩, rfl, by show h'.allocs + _ + _ = _; rw [hw.allocs, hw.frees]; rfl⟩

/-! ### Removing -/

theorem premove_view (h : Heap) (c : PCtl) (u : Bool) (a s : Nat) :
    removeRegion (c.view h) u a s = (premove c u a s).map (fun x => (x.1.view h, x.2)) := by
  unfold removeRegion premove
  rw [show (c.view h).regions = c.regions.map (PRegion.view h) from rfl, premoveLoop_view]
  cases premoveLoop u a s c.regions with
  | ok x => rfl
  | err e => rfl
  | fault f => rfl

theorem premove_ok {c c' : PCtl} {u : Bool} {a s : Nat} {ev : List Ev} (he : premove c u a s = .ok (c', ev)) :
    ∃ rs, c' = { c with regions := rs } ∧ List.Sublist rs c.regions := by
  unfold premove at he
  cases hp : premoveLoop u a s c.regions with
  | ok x => rw [hp] at he; cases he; exact ⟨x.1, rfl, premoveLoop_sub u a s _ _ x.2 hp⟩
  | err e => rw [hp] at he; cases he
  | fault f => rw [hp] at he; cases he

/-- Regions disappear from a table; their bitmaps stay behind. -/
theorem Kempt.sub {h : Heap} {c : PCtl} (hs : Kempt h c) {rs : List PRegion} (hl : List.Sublist rs c.regions) :
    Kempt h { c with regions := rs } :=
  ⟨hs.fresh, hs.owns.sub hl, fun h0 r hr => hs.off h0 r (hl.subset hr)⟩

theorem held_sub {a b : List PRegion} (h : List.Sublist a b) : held a ≤ held b := h.countP_le

theorem punmapTail_follows {h h0 : Heap} {c : PCtl} (hs : Kempt h c) (ha : h.allocs = h0.allocs) (hf : h.frees = h0.frees) (u : Bool)
    (a s : Nat) (bm : Option (List Byte)) :
    Follows h0 c (held c.regions - held (punmapTail u c a s bm).1.regions)
      ((unmapTail u (c.view h) a s bm).1, .unmap (unmapTail u (c.view h) a s bm).2.1, (unmapTail u (c.view h) a s bm).2.2)
      (h, (punmapTail u c a s bm).1, .unmap (punmapTail u c a s bm).2.1, (punmapTail u c a s bm).2.2) ∧
    held (punmapTail u c a s bm).1.regions ≤ held c.regions := by
  have hsame : Follows h0 c (held c.regions - held c.regions) (c.view h, .unmap (.err 0), []) (h, c, .unmap (.err 0), []) :=
    ⟨hs, rfl, by
      show h.allocs + h0.frees + held c.regions = h0.allocs + h.frees + held c.regions + (held c.regions - held c.regions)
      rw [ha, hf]; omega⟩
  unfold unmapTail punmapTail
  rw [premove_view]
  cases hp : premove c u a s with
  | err e => exact ⟨⟨hsame.sound, rfl, hsame.count⟩, Nat.le_refl _⟩
  | fault f => exact ⟨⟨hsame.sound, rfl, hsame.count⟩, Nat.le_refl _⟩
  | ok x =>
    obtain ⟨c', ev⟩ := x
    obtain ⟨rs, rfl, hsub⟩ := premove_ok hp
    have hle := held_sub hsub
    refine ⟨⟨hs.sub hsub, rfl, ?_⟩, hle⟩
    show h.allocs + h0.frees + held c.regions = h0.allocs + h.frees + held rs + (held c.regions - held rs)
    rw [ha, hf]
    omega

theorem punmap_follows {h : Heap} {c : PCtl} (hs : Kempt h c) (cfg : Cfg) (m : Bool) (a s : Nat) (k : UnmapKind) :
    Follows h c (held c.regions - held (pstep cfg h c (.unmap m a s k)).2.1.regions) (step cfg (c.view h) (.unmap m a s k))
      (pstep cfg h c (.unmap m a s k)) ∧ held (pstep cfg h c (.unmap m a s k)).2.1.regions ≤ held c.regions := by
  have still : ∀ (h' : Heap) (r : UnmapOut), Wrote h h' c → Follows h c (held c.regions - held c.regions) (c.view h', .unmap r, [])
      (h', c, .unmap r, []) ∧ held c.regions ≤ held c.regions := fun h' r hw => by
    rw [Nat.sub_self]; exact ⟨Follows.wrote hs hw _ _, Nat.le_refl _⟩
  have hid := Wrote.refl hs.fresh hs.owns
  show Follows h c (held c.regions - held (punmap m cfg.hasUnreg h c a s k).2.1.regions)
    ((handleUnmap m cfg.hasUnreg (c.view h) a s k).1, .unmap (handleUnmap m cfg.hasUnreg (c.view h) a s k).2.1,
      (handleUnmap m cfg.hasUnreg (c.view h) a s k).2.2)
    ((punmap m cfg.hasUnreg h c a s k).1, (punmap m cfg.hasUnreg h c a s k).2.1,
      .unmap (punmap m cfg.hasUnreg h c a s k).2.2.1, (punmap m cfg.hasUnreg h c a s k).2.2.2) ∧
    held (punmap m cfg.hasUnreg h c a s k).2.1.regions ≤ held c.regions
  unfold handleUnmap punmap
  cases m with
  | false => exact still h _ hid
  | true =>
    rw [if_neg (by decide), if_neg (by decide)]
    cases k with
    | plain => exact punmapTail_follows hs rfl rfl cfg.hasUnreg a s none
    | all =>
      dsimp only
      have hv : removeAll (c.view h) cfg.hasUnreg = (premoveAll c cfg.hasUnreg).map (fun x => (x.1.view h, x.2)) := by
        unfold removeAll premoveAll
        rw [show (c.view h).regions = c.regions.map (PRegion.view h) from rfl, dropAll_view]
        cases dropAll cfg.hasUnreg (c.regions.map PRegion.bare) with
        | ok x => rfl
        | err e => rfl
        | fault f => rfl
      rw [hv]
      unfold premoveAll
      cases dropAll cfg.hasUnreg (c.regions.map PRegion.bare) with
      | ok ev =>
        refine ⟨⟨hs.sub (List.nil_sublist _), rfl, ?_⟩, Nat.zero_le _⟩
        show h.allocs + h.frees + held c.regions = h.allocs + h.frees + 0 + (held c.regions - 0)
        omega
      | err e => exact still h _ hid
      | fault f => exact still h _ hid
    | getDirty pg bs buf hint =>
      dsimp only
      obtain ⟨hg, hw⟩ := pget_spec c h hs.fresh hs.owns hint a s pg bs buf
      rw [hg]
      generalize hx : pget h c hint a s pg bs buf = x at hw
      obtain ⟨h', g⟩ := x
      have hs' : Kempt h' c := ⟨hw.fresh, hw.owns, hs.off⟩
      cases g with
      | done bm => exact punmapTail_follows hs' hw.allocs hw.frees cfg.hasUnreg a s (some bm)
      | ret0 => exact punmapTail_follows hs' hw.allocs hw.frees cfg.hasUnreg a s (some buf)
      | noErrno => exact still h' _ hw
      | err e => exact still h' _ hw
      | fault f => exact still h' _ hw

/-! ### Starting and stopping -/

theorem clear_nones {n : Nat} {rs : List Region} (h : ∀ r ∈ rs, r.dirty = none) : clearBitmaps n rs = rs := by
  unfold clearBitmaps
  have : (rs.take n).map (fun r => { r with dirty := none }) = rs.take n := by
    refine (List.map_congr_left (fun r hr => ?_)).trans (List.map_id' _)
    have := h r (List.mem_of_mem_take hr)
    cases r; simp only at this; subst this; rfl
  rw [this, List.take_append_drop]

theorem pstart_follows {h : Heap} {c : PCtl} (hs : Kempt h c) (ca : Nat → Bool) (pg : Nat) :
    Follows h c 0 ((loggingStart ca (c.view h) pg).1, .log (loggingStart ca (c.view h) pg).2, [])
      ((pstart ca h c pg).1, (pstart ca h c pg).2.1, .log (pstart ca h c pg).2.2, []) := by
  have still : ∀ r, Follows h c 0 (c.view h, .log r, []) (h, c, .log r, []) := fun r => Follows.idle hs _ _
  unfold loggingStart pstart
  rw [show (c.view h).dirtyPgsize = c.dirtyPgsize from rfl]
  by_cases h0 : pg = 0
  · rw [if_pos h0, if_pos h0]; exact still _
  rw [if_neg h0, if_neg h0]
  by_cases h1 : c.dirtyPgsize > 0
  · rw [if_pos h1, if_pos h1]
    by_cases h2 : c.dirtyPgsize ≠ pg
    · rw [if_pos h2, if_pos h2]; exact still _
    · rw [if_neg h2, if_neg h2]; exact still _
  rw [if_neg h1, if_neg h1]
  have hn := hs.off (by omega)
  generalize hx : pstartLoop ca pg 0 h c.regions = x
  obtain ⟨h', rs', f⟩ := x
  obtain ⟨st, hrest⟩ := pstartLoop_spec ca pg c.regions 0 h hs.fresh hn h' rs' f hx
  rw [show (c.view h).regions = c.regions.map (PRegion.view h) from rfl, view_nones h hn]
  have hz := held_zero hn
  cases f with
  | none =>
    dsimp only at hrest ⊢
    rw [hrest]
    refine ⟨⟨st.fresh, st.owns, fun h0' => absurd h0' h0⟩, rfl, ?_⟩
    show h'.allocs + h.frees + held c.regions = h.allocs + h'.frees + held rs' + 0
    rw [st.allocs, st.frees, hz]
    omega
  | some y =>
    obtain ⟨n, e⟩ := y
    dsimp only at hrest ⊢
    obtain ⟨-, hn1, hd, hne, hrun⟩ := hrest
    rw [hrun]
    cases e with
    | ok u => exact absurd rfl hne
    | fault f => exact still _
    | err e =>
      obtain ⟨h2, e1, e2, e3, e4, e5, e6, -⟩ := pclear_spec n h' rs' st.owns st.fresh
      have hrs : (rs'.take n).map PRegion.cleared ++ rs'.drop n = c.regions := by
        rw [Nat.sub_zero] at hd
        rw [← cleared_nones hd, ← List.map_append, List.take_append_drop, st.base]
      have hheld : held (rs'.take n) = held rs' := by
        rw [Nat.sub_zero] at hd
        have := held_append (rs'.take n) (rs'.drop n)
        rw [List.take_append_drop, held_zero hd] at this
        omega
      dsimp only [Res.map]
      rw [e1]
      dsimp only
      rw [hrs, clear_nones (fun r hr => by
        obtain ⟨x, -, rfl⟩ := List.mem_map.mp hr
        rfl)]
      refine ⟨⟨e2, (Started.idle hs.fresh hn).owns.congr (fun r hr p hp => by rw [hn r hr] at hp; cases hp), hs.off⟩, ?_, ?_⟩
      · show _ = (c.view h2, _, _)
        congr 1
        unfold PCtl.view
        rw [view_nones h2 hn]
      · show h2.allocs + h.frees + held c.regions = h.allocs + h2.frees + held c.regions + 0
        rw [e3, e5, st.allocs, st.frees, hheld]
        omega

theorem pstop_follows {h : Heap} {c : PCtl} (hs : Kempt h c) :
    Follows h c 0 (loggingStop (c.view h), .log (.ok ()), []) ((pstop h c).1, (pstop h c).2.1, .log (pstop h c).2.2, []) := by
  unfold loggingStop pstop
  rw [show (c.view h).dirtyPgsize = c.dirtyPgsize from rfl]
  by_cases h0 : c.dirtyPgsize = 0
  · rw [if_pos h0, if_pos h0]; exact Follows.idle hs _ _
  rw [if_neg h0, if_neg h0]
  obtain ⟨h2, e1, e2, e3, e4, e5, -, -⟩ := pclear_spec c.regions.length h c.regions hs.owns hs.fresh
  rw [List.take_length, List.drop_length, List.append_nil] at e1
  rw [List.take_length] at e5
  have hn : ∀ r ∈ c.regions.map PRegion.cleared, r.bitmap = none := fun r hr => by
    obtain ⟨x, -, rfl⟩ := List.mem_map.mp hr
    rfl
  rw [e1]
  refine ⟨⟨e2, (Started.idle e2 hn).owns, fun _ => hn⟩, ?_, ?_⟩
  · show (_, _, _) = (PCtl.view h2 _, _, _)
    congr 1
    unfold PCtl.view
    congr 1
    rw [view_nones h2 hn]
    simp only [List.map_map]
    rfl
  · show h2.allocs + h.frees + held c.regions = h.allocs + h2.frees + held (c.regions.map PRegion.cleared) + 0
    rw [e3, e5, held_zero hn]
    omega

/-! ### Adding -/

/-- What a request to add a region does to heap and table. -/
structure Added (h : Heap) (c : PCtl) (a : Ctl × Res Nat × List Ev) (x : Heap × PCtl × Res Nat × List Ev) : Prop where
  sound : Kempt x.1 x.2.1
  same : a = (x.2.1.view x.1, x.2.2)
  count : x.1.allocs + h.frees + held c.regions = h.allocs + x.1.frees + held x.2.1.regions

theorem Added.idle {h : Heap} {c : PCtl} (hs : Kempt h c) (r : Res Nat) (ev : List Ev) :
    Added h c (c.view h, r, ev) (h, c, r, ev) := ⟨hs, rfl, rfl⟩

theorem pmap_view (os : OS) (h : Heap) (r : PRegion) :
    mapRegion os (r.view h) = (match pmap os r with | .error e => .error e | .ok r' => .ok (r'.view h)) := by
  unfold pmap mapRegion
  rw [show (r.view h).offset = r.bare.offset from rfl, show (r.view h).info = r.bare.info from rfl]
  dsimp only
  cases os.mmap (roundUp r.bare.info.len r.bare.info.pageSize) (roundDown r.bare.offset r.bare.info.pageSize) with
  | error e => rfl
  | ok b => rfl

theorem pmap_bitmap {os : OS} {r r' : PRegion} (he : pmap os r = .ok r') : r'.bitmap = r.bitmap := by
  unfold pmap at he
  cases hm : mapRegion os r.bare with
  | error e => rw [hm] at he; cases he
  | ok a => rw [hm] at he; cases he; rfl

/-- A region without bitmap is appended. -/
theorem Added.plain {h : Heap} {c : PCtl} (hs : Kempt h c) {r : PRegion} (hb : r.bitmap = none) (n : Res Nat) (ev : List Ev) :
    Added h c ({ c.view h with regions := (c.view h).regions ++ [r.view h] }, n, ev)
      (h, { c with regions := c.regions ++ [r] }, n, ev) := by
  refine ⟨⟨hs.fresh, ⟨?_, ?_⟩, ?_⟩, ?_, ?_⟩
  · intro x hx p hp
    rcases List.mem_append.mp hx with hx | hx
    · exact hs.owns.live x hx p hp
    · rw [List.mem_singleton.mp hx, hb] at hp; cases hp
  · refine List.pairwise_append.mpr ⟨hs.owns.apart, List.pairwise_singleton _ _, fun x _ y hy p _ hyp => ?_⟩
    rw [List.mem_singleton.mp hy, hb] at hyp; cases hyp
  · intro h0 x hx
    rcases List.mem_append.mp hx with hx | hx
    · exact hs.off h0 x hx
    · rw [List.mem_singleton.mp hx, hb]
  · unfold PCtl.view
    rw [List.map_append]
    rfl
  · show h.allocs + h.frees + held c.regions = h.allocs + h.frees + held (c.regions ++ [r])
    rw [held_append, held_cons, hb]
    rfl

/-- A region with a new bitmap is appended. -/
theorem Added.logged {h : Heap} {c : PCtl} (hs : Kempt h c) {r : PRegion} {b : List Byte} (hb : r.bitmap = some h.next)
    (hd : c.dirtyPgsize ≠ 0) (n : Res Nat) (ev : List Ev) :
    Added h c ({ c.view h with regions := (c.view h).regions ++ [r.view (h.alloc b)] }, n, ev)
      (h.alloc b, { c with regions := c.regions ++ [r] }, n, ev) := by
  have hlt : ∀ x ∈ c.regions, ∀ p, x.bitmap = some p → p < h.next := fun x hx p hp => hs.owns.lt hs.fresh hx hp
  refine ⟨⟨Heap.alloc_fresh hs.fresh b, ⟨?_, ?_⟩, fun h0 => absurd h0 hd⟩, ?_, ?_⟩
  · intro x hx p hp
    rcases List.mem_append.mp hx with hx | hx
    · obtain ⟨b', hb'⟩ := hs.owns.live x hx p hp
      exact ⟨b', by rw [Heap.alloc_old (hlt x hx p hp)]; exact hb'⟩
    · rw [List.mem_singleton.mp hx, hb] at hp
      cases hp
      exact ⟨b, Heap.alloc_new h b⟩
  · refine List.pairwise_append.mpr ⟨hs.owns.apart, List.pairwise_singleton _ _, fun x hx y hy p hxp hyp => ?_⟩
    rw [List.mem_singleton.mp hy, hb] at hyp
    cases hyp
    exact absurd (hlt x hx _ hxp) (Nat.lt_irrefl _)
  · unfold PCtl.view
    rw [List.map_append]
    have := view_congr (h := h) (h' := h.alloc b) (rs := c.regions) (fun x hx p hp => Heap.alloc_old (hlt x hx p hp))
    show (_, _, _) = (_, _, _)
    congr 1
    rw [this]
    rfl
  · show h.allocs + 1 + h.frees + held c.regions = h.allocs + h.frees + held (c.regions ++ [r])
    rw [held_append, held_cons, hb]
    show _ = _ + (held c.regions + (0 + 1))
    omega

theorem free_new {h : Heap} (hf : h.Fresh) (b : List Byte) :
    ∃ h', (h.alloc b).free (some h.next) = .ok h' ∧ h'.blocks = h.blocks ∧ h'.next = h.next + 1 ∧ h'.allocs = h.allocs + 1 ∧
      h'.frees = h.frees + 1 := by
  refine ⟨_, Heap.free_ok (Heap.alloc_new h b), ?_, rfl, rfl, rfl⟩
  funext q
  show (if q = h.next then none else if q = h.next then some b else h.blocks q) = h.blocks q
  by_cases hq : q = h.next
  · rw [if_pos hq, hq, hf h.next (Nat.le_refl _)]
  · rw [if_neg hq, if_neg hq]

theorem padd_added {h : Heap} {c : PCtl} (hs : Kempt h c) (os : OS) (addr size : Nat) (fd : Option Fd) (off : Nat) (prot : Prot) :
    Added h c (addRegion os (c.view h) addr size fd off prot) (padd os h c addr size fd off prot) := by
  unfold addRegion padd
  rw [show (c.view h).maxSize = c.maxSize from rfl, show (c.view h).maxRegions = c.maxRegions from rfl,
    show (c.view h).dirtyPgsize = c.dirtyPgsize from rfl,
    show scan os addr size fd off prot 0 (c.view h).regions = scan os addr size fd off prot 0 (c.regions.map PRegion.bare) from
      scan_view h os addr size fd off prot c.regions 0,
    show (c.view h).regions.length = c.regions.length from List.length_map ..]
  by_cases h0 : size > c.maxSize
  · rw [if_pos h0, if_pos h0]; exact Added.idle hs _ _
  rw [if_neg h0, if_neg h0]
  cases scan os addr size fd off prot 0 (c.regions.map PRegion.bare) with
  | bad e => exact Added.idle hs _ _
  | same i => exact Added.idle hs _ _
  | fresh =>
    dsimp only
    by_cases h1 : c.regions.length = c.maxRegions
    · rw [if_pos h1, if_pos h1]; exact Added.idle hs _ _
    rw [if_neg h1, if_neg h1]
    cases pageSizeFor os fd with
    | err e => exact Added.idle hs _ _
    | fault f => exact Added.idle hs _ _
    | ok ps =>
      cases fd with
      | none => exact Added.plain (r := { info := _, fd := none, offset := off, bitmap := none }) hs rfl _ _
      | some x =>
        dsimp only
        generalize hr0 : PRegion.mk { base := addr, len := size, vaddr := 0, mapBase := 0, mapLen := 0, pageSize := ps, prot }
          (some x) off none = r0
        have hb0 : r0.bitmap = none := by rw [← hr0]
        have hv0 : Region.mk { base := addr, len := size, vaddr := 0, mapBase := 0, mapLen := 0, pageSize := ps, prot }
          (some x) off none = r0.view h := by rw [← hr0]; rfl
        rw [hv0]
        by_cases h2 : c.dirtyPgsize ≠ 0
        · rw [if_pos h2, if_pos h2, pstartOn_view]
          cases hp : pstartOn os.calloc h r0 c.dirtyPgsize with
          | err e => exact Added.idle hs _ _
          | fault f => exact Added.idle hs _ _
          | ok y =>
            obtain ⟨h1', r1⟩ := y
            obtain ⟨b, rfl, rfl⟩ := pstartOn_ok hp
            dsimp only [Res.map]
            rw [pmap_view]
            cases hm : pmap os { r0 with bitmap := some h.next } with
            | error e =>
              dsimp only
              obtain ⟨h', f1, f2, f3, f4, f5⟩ := free_new hs.fresh b
              rw [f1]
              refine ⟨⟨?_, ?_, hs.off⟩, ?_, ?_⟩
              · intro q hq
                have hq' : h'.next ≤ q := hq
                rw [f3] at hq'
                show h'.blocks q = none
                rw [f2]
                exact hs.fresh q (by omega)
              · exact hs.owns.congr (fun r hr p hp => by show ∃ b, h'.blocks p = some b; rw [f2]; exact hs.owns.live r hr p hp)
              · show (c.view h, _, _) = (c.view h', _, _)
                congr 1
                unfold PCtl.view PRegion.view
                rw [f2]
              · show h'.allocs + h.frees + held c.regions = h.allocs + h'.frees + held c.regions
                rw [f4, f5]
                omega
            | ok r2 =>
              have hb2 : r2.bitmap = some h.next := pmap_bitmap hm
              exact Added.logged (b := b) hs hb2 h2 _ _
        · rw [if_neg h2, if_neg h2]
          dsimp only
          rw [pmap_view]
          cases hm : pmap os r0 with
          | error e =>
            dsimp only
            rw [hb0]
            exact Added.idle hs _ _
          | ok r2 => exact Added.plain hs ((pmap_bitmap hm).trans hb0) _ _

theorem pmapReq_follows {h : Heap} {c : PCtl} (hs : Kempt h c) (cfg : Cfg) (os : OS) (q : MapReq) :
    Follows h c 0 (step cfg (c.view h) (.map os q)) (pstep cfg h c (.map os q)) := by
  show Follows h c 0 ((handleMap os cfg.hasReg (c.view h) q).ctl, .map (handleMap os cfg.hasReg (c.view h) q).res
    (handleMap os cfg.hasReg (c.view h) q).fds, (handleMap os cfg.hasReg (c.view h) q).evs) (pmapReq os cfg.hasReg h c q)
  unfold handleMap pmapReq
  dsimp only
  by_cases h0 : q.flags % U32 / 4 ≠ 0
  · rw [if_pos h0, if_pos h0]; exact Follows.idle hs _ _
  rw [if_neg h0, if_neg h0]
  cases takeFirst q.fds with
  | err e => exact Follows.idle hs _ _
  | fault f => exact Follows.idle hs _ _
  | ok y =>
    obtain ⟨fd, fds⟩ := y
    dsimp only
    have ha := padd_added hs os q.addr q.size fd q.offset { read := q.flags.testBit 0, write := q.flags.testBit 1 }
    rw [ha.same]
    generalize padd os h c q.addr q.size fd q.offset { read := q.flags.testBit 0, write := q.flags.testBit 1 } = x at ha
    obtain ⟨h', c', r, ev⟩ := x
    cases r with
    | err e => exact ⟨ha.sound, rfl, ha.count⟩
    | fault f => exact ⟨ha.sound, rfl, ha.count⟩
    | ok idx =>
      dsimp only
      rw [show (c'.view h').regions[idx]? = c'.regions[idx]?.map (PRegion.view h') from List.getElem?_map ..]
      cases c'.regions[idx]? with
      | none => exact ⟨ha.sound, rfl, ha.count⟩
      | some r => exact ⟨ha.sound, rfl, ha.count⟩

/-! ## Histories -/

/-- Bitmaps that disappear from the table in an unmap request. -/
def lostBy (cfg : Cfg) (c : Ctl) (op : Op) : Nat :=
  match op with
  | .unmap .. => bitmaps c - bitmaps (step cfg c op).1
  | _ => 0

/-- The same for a whole history. -/
def lostIn (cfg : Cfg) : Ctl → List Op → Nat
  | _, [] => 0
  | c, op :: ops => lostBy cfg c op + lostIn cfg (step cfg c op).1 ops

/-- The replies and events of a history of the table that holds its bitmaps. -/
def outcomes (cfg : Cfg) : Ctl → List Op → List (Reply × List Ev)
  | _, [] => []
  | c, op :: ops => (step cfg c op).2 :: outcomes cfg (step cfg c op).1 ops

theorem bitmaps_view {h : Heap} {c : PCtl} (ho : Owns h c.regions) : bitmaps (c.view h) = held c.regions := held_view ho

theorem pstep_follows {h : Heap} {c : PCtl} (hs : Kempt h c) (cfg : Cfg) (op : Op) :
    Follows h c (lostBy cfg (c.view h) op) (step cfg (c.view h) op) (pstep cfg h c op) := by
  cases op with
  | map os q => exact pmapReq_follows hs cfg os q
  | unmap m a s k =>
    obtain ⟨hf, -⟩ := punmap_follows hs cfg m a s k
    have : lostBy cfg (c.view h) (.unmap m a s k) = held c.regions - held (pstep cfg h c (.unmap m a s k)).2.1.regions := by
      show bitmaps (c.view h) - bitmaps (step cfg (c.view h) (.unmap m a s k)).1 = _
      rw [hf.same, bitmaps_view hs.owns, bitmaps_view hf.sound.owns]
    rw [this]
    exact hf
  | logStart ca pg => exact pstart_follows hs ca pg
  | logStop => exact pstop_follows hs
  | query hint a l pg n out =>
    obtain ⟨h1, h2⟩ := pget_spec c h hs.fresh hs.owns hint a l pg n out
    show Follows h c 0 ((dirtyPageGet (c.view h) hint a l pg n out).1, .query (dirtyPageGet (c.view h) hint a l pg n out).2, [])
      ((pget h c hint a l pg n out).1, c, .query (pget h c hint a l pg n out).2, [])
    rw [h1]
    exact Follows.wrote hs h2 _ _
  | mark sgl =>
    obtain ⟨h1, h2⟩ := pmark_spec c sgl h hs.fresh hs.owns
    unfold step pstep
    dsimp only
    rw [h1]
    cases hp : pmark c h sgl with
    | ok h' => exact Follows.wrote hs (h2 h' hp) _ _
    | err e => exact Follows.idle hs _ _
    | fault f => exact Follows.idle hs _ _

theorem prun_follows (cfg : Cfg) : ∀ (ops : List Op) (h : Heap) (c : PCtl), Kempt h c →
    Kempt (prun cfg h c ops).1 (prun cfg h c ops).2.1 ∧
    (prun cfg h c ops).2.1.view (prun cfg h c ops).1 = (run cfg (c.view h) ops).1 ∧
    (prun cfg h c ops).2.2 = outcomes cfg (c.view h) ops ∧
    (prun cfg h c ops).1.allocs + h.frees + held c.regions =
      h.allocs + (prun cfg h c ops).1.frees + held (prun cfg h c ops).2.1.regions + lostIn cfg (c.view h) ops := by
  intro ops
  induction ops with
  | nil => intro h c hs; exact ⟨hs, rfl, rfl, rfl⟩
  | cons op ops ih =>
    intro h c hs
    have hf := pstep_follows hs cfg op
    obtain ⟨i1, i2, i3, i4⟩ := ih _ _ hf.sound
    have hv : (step cfg (c.view h) op).1 = (pstep cfg h c op).2.1.view (pstep cfg h c op).1 := by rw [hf.same]
    have ho : (step cfg (c.view h) op).2 = (pstep cfg h c op).2.2 := by rw [hf.same]
    refine ⟨i1, ?_, ?_, ?_⟩
    · show _ = (run cfg (step cfg (c.view h) op).1 ops).1
      rw [hv]; exact i2
    · show ((pstep cfg h c op).2.2.1, (pstep cfg h c op).2.2.2) :: _ = (step cfg (c.view h) op).2 :: outcomes cfg (step cfg (c.view h) op).1 ops
      rw [hv, ho, ← i3]
    · show (prun cfg (pstep cfg h c op).1 (pstep cfg h c op).2.1 ops).1.allocs + _ + _ =
        _ + (prun cfg (pstep cfg h c op).1 (pstep cfg h c op).2.1 ops).1.frees +
          held (prun cfg (pstep cfg h c op).1 (pstep cfg h c op).2.1 ops).2.1.regions +
          (lostBy cfg (c.view h) op + lostIn cfg (step cfg (c.view h) op).1 ops)
      have := hf.count
      rw [hv]
      omega

theorem sound_create (m s : Nat) : Kempt Heap.empty (pcreate m s) :=
  ⟨fun _ _ => rfl, Owns.nil _, fun _ _ h => by cases h⟩

/-- In every history of requests and device calls the table with pointers gives the replies, callbacks and state of the table that
holds its bitmaps: every `free` is of a block in use, every access of a bitmap finds it allocated, no two regions share one. -/
theorem C94_sound (cfg : Cfg) (m s : Nat) (ops : List Op) :
    (prun cfg Heap.empty (pcreate m s) ops).2.2 = outcomes cfg (create m s) ops ∧
    (prun cfg Heap.empty (pcreate m s) ops).2.1.view (prun cfg Heap.empty (pcreate m s) ops).1 = (run cfg (create m s) ops).1 ∧
    (∀ r ∈ (prun cfg Heap.empty (pcreate m s) ops).2.1.regions, ∀ p, r.bitmap = some p →
      ((prun cfg Heap.empty (pcreate m s) ops).1.blocks p).isSome = true) ∧
    (prun cfg Heap.empty (pcreate m s) ops).2.1.regions.Pairwise (fun a b => ∀ p, a.bitmap = some p → b.bitmap ≠ some p) := by
  obtain ⟨h1, h2, h3, -⟩ := prun_follows cfg ops Heap.empty (pcreate m s) (sound_create m s)
  refine ⟨h3, h2, fun r hr p hp => ?_, h1.owns.apart⟩
  obtain ⟨b, hb⟩ := h1.owns.live r hr p hp
  rw [hb]
  rfl

/-- The account of the blocks: each one allocated was freed, belongs to a region of the table, or belonged to a region that was
unmapped with its bitmap. -/
theorem C94_account (cfg : Cfg) (m s : Nat) (ops : List Op) :
    (prun cfg Heap.empty (pcreate m s) ops).1.allocs =
      (prun cfg Heap.empty (pcreate m s) ops).1.frees + bitmaps (run cfg (create m s) ops).1 + lostIn cfg (create m s) ops := by
  obtain ⟨h1, h2, -, h4⟩ := prun_follows cfg ops Heap.empty (pcreate m s) (sound_create m s)
  rw [show (run cfg (create m s) ops).1 = _ from h2.symm, bitmaps_view h1.owns]
  have e1 : (Heap.empty).allocs = 0 := rfl
  have e2 : (Heap.empty).frees = 0 := rfl
  have e3 : held (pcreate m s).regions = 0 := rfl
  have e4 : (pcreate m s).view Heap.empty = create m s := rfl
  rw [e1, e2, e3, e4] at h4
  omega

def Op.isUnmap : Op → Bool
  | .unmap .. => true
  | _ => false

theorem bitmaps_off {c : Ctl} (hl : LogInv c) (h : c.dirtyPgsize = 0) : bitmaps c = 0 := by
  unfold bitmaps
  rw [List.countP_eq_zero]
  intro r hr
  rw [(hl r hr).1 h]
  decide

theorem lost_none (cfg : Cfg) : ∀ (ops : List Op) (c : Ctl), LogInv c →
    (∀ pre op post, ops = pre ++ op :: post → op.isUnmap = true → (run cfg c pre).1.dirtyPgsize = 0) → lostIn cfg c ops = 0 := by
  intro ops
  induction ops with
  | nil => intro c _ _; rfl
  | cons op ops ih =>
    intro c hl hq
    have h1 : lostBy cfg c op = 0 := by
      cases op with
      | unmap m a z k =>
        have h0 : c.dirtyPgsize = 0 := hq [] _ ops rfl rfl
        show bitmaps c - _ = 0
        rw [bitmaps_off hl h0]
        exact Nat.zero_sub _
      | _ => rfl
    show lostBy cfg c op + _ = 0
    rw [h1, Nat.zero_add]
    exact ih _ (logInv_step cfg c op hl) (fun pre o post he ho => hq (op :: pre) o post (by rw [he]; rfl) ho)

/-- Nothing is lost if no region is unmapped while logging is on: each block allocated was freed or belongs to a region of the table;
and once logging is off all were freed. -/
theorem C94_no_leak (cfg : Cfg) (m s : Nat) (ops : List Op)
    (hq : ∀ pre op post, ops = pre ++ op :: post → op.isUnmap = true → (run cfg (create m s) pre).1.dirtyPgsize = 0) :
    (prun cfg Heap.empty (pcreate m s) ops).1.allocs =
      (prun cfg Heap.empty (pcreate m s) ops).1.frees + bitmaps (run cfg (create m s) ops).1 ∧
    ((run cfg (create m s) ops).1.dirtyPgsize = 0 →
      (prun cfg Heap.empty (pcreate m s) ops).1.allocs = (prun cfg Heap.empty (pcreate m s) ops).1.frees) := by
  have h := C94_account cfg m s ops
  rw [lost_none cfg ops (create m s) (fun r hr => by cases hr) hq] at h
  refine ⟨h, fun h0 => ?_⟩
  rw [bitmaps_off (logInv_run cfg m s ops) h0] at h
  exact h

/-- The empty table with logging on. -/
def logging : Ctl := { create 64 0x100000 with dirtyPgsize := 0x1000 }

/-- A client that maps and unmaps `n` times the same memory while logging is on. -/
def rounds : Nat → List Op
  | 0 => [.logStop]
  | n + 1 => mapFd 0x10000 0x4000 0 4 :: .unmap true 0x10000 0x4000 .plain :: rounds n

theorem rounds_spec (n : Nat) :
    (run cfg0 logging (rounds n)).1 = create 64 0x100000 ∧
    lostIn cfg0 logging (rounds n) = n := by
  induction n with
  | zero => exact ⟨rfl, rfl⟩
  | succ n ih =>
    have e : (step cfg0 (step cfg0 logging (mapFd 0x10000 0x4000 0 4)).1
      (.unmap true 0x10000 0x4000 .plain)).1 = logging := by decide
    have l1 : lostBy cfg0 logging (mapFd 0x10000 0x4000 0 4) = 0 := rfl
    have l2 : lostBy cfg0 (step cfg0 logging (mapFd 0x10000 0x4000 0 4)).1
      (.unmap true 0x10000 0x4000 .plain) = 1 := by decide
    refine ⟨?_, ?_⟩
    · show (run cfg0 (step cfg0 (step cfg0 logging (mapFd 0x10000 0x4000 0 4)).1 (.unmap true 0x10000 0x4000 .plain)).1 (rounds n)).1 = _
      rw [e]; exact ih.1
    · show lostBy cfg0 _ _ + (lostBy cfg0 _ _ + lostIn cfg0 (step cfg0 (step cfg0 logging (mapFd 0x10000 0x4000 0 4)).1
        (.unmap true 0x10000 0x4000 .plain)).1 (rounds n)) = _
      rw [e, ih.2, l1, l2]
      omega

/-- The finding: `dma_controller_remove_region` does not free the bitmap (`lib/dma.c:145-182`).  A client can make the server lose as
many blocks as it likes; the table is empty and logging off afterwards. -/
theorem C94_leak (n : Nat) :
    (run cfg0 (create 64 0x100000) (.logStart (fun _ => true) 0x1000 :: rounds n)).1 = create 64 0x100000 ∧
    (prun cfg0 Heap.empty (pcreate 64 0x100000) (.logStart (fun _ => true) 0x1000 :: rounds n)).1.allocs =
      (prun cfg0 Heap.empty (pcreate 64 0x100000) (.logStart (fun _ => true) 0x1000 :: rounds n)).1.frees + n := by
  have e : (step cfg0 (create 64 0x100000) (.logStart (fun _ => true) 0x1000)).1 =
    logging := by decide
  have h := C94_account cfg0 64 0x100000 (.logStart (fun _ => true) 0x1000 :: rounds n)
  have hr : (run cfg0 (create 64 0x100000) (.logStart (fun _ => true) 0x1000 :: rounds n)).1 = create 64 0x100000 := by
    show (run cfg0 (step cfg0 (create 64 0x100000) (.logStart (fun _ => true) 0x1000)).1 (rounds n)).1 = _
    rw [e]; exact (rounds_spec n).1
  have hl : lostIn cfg0 (create 64 0x100000) (.logStart (fun _ => true) 0x1000 :: rounds n) = n := by
    show 0 + lostIn cfg0 (step cfg0 (create 64 0x100000) (.logStart (fun _ => true) 0x1000)).1 (rounds n) = n
    rw [e, (rounds_spec n).2]
    omega
  rw [hr, hl] at h
  exact ⟨hr, h⟩

/-- Logging, marking, stopping and unmapping in order: two blocks allocated and freed. -/
def tidy : List Op :=
  hist5 ++ [.mark [⟨0x10000, 0, 0x1001, 0x6fff, true⟩], .logStop, .unmap true 0x10000 0xc000 .plain]

example : (∀ pre op post, tidy = pre ++ op :: post → op.isUnmap = true →
      (run cfg0 (create 64 0x100000) pre).1.dirtyPgsize = 0) ∧
    (prun cfg0 Heap.empty (pcreate 64 0x100000) tidy).1.allocs = 2 ∧
    (prun cfg0 Heap.empty (pcreate 64 0x100000) tidy).1.frees = 2 ∧
    (run cfg0 (create 64 0x100000) tidy).1.regions.length = 1 := by
  refine ⟨?_, by decide +kernel, by decide +kernel, by decide +kernel⟩
  intro pre op post he ho
  rcases pre with _ | ⟨a, _ | ⟨b, _ | ⟨c, _ | ⟨d, _ | ⟨e, _ | ⟨f, pre⟩⟩⟩⟩⟩⟩
  · cases he; cases ho
  · cases he; cases ho
  · cases he; cases ho
  · cases he; cases ho
  · cases he; cases ho
  · cases he; decide +kernel
  · cases pre <;> cases he

/-- A table with two bitmaps while logging; the same bytes through the pointers. -/
example : (prun cfg0 Heap.empty (pcreate 64 0x100000) (tidy.take 4)).2.1.regions.map (·.bitmap) = [some 0, some 1] ∧
    (run cfg0 (create 64 0x100000) (tidy.take 4)).1.regions.map (fun r => r.dirty.map (·.take 2)) =
      [some [0xc0#8, 0x00#8], some [0#8, 0#8]] ∧
    bitmaps (run cfg0 (create 64 0x100000) (tidy.take 4)).1 = 2 := by decide +kernel

end Verif.Dma
