import Verif.Wire.Life

/-!
# C118: the path of the socket

Contexts of one or several processes are created on paths and destroyed.  A file that is a socket is known by the number of the
listening socket that was bound to it.  `unlink` of a socket of its own does not fail; the working directory stays (a relative path
is looked up again by `vfu_destroy_ctx`). -/

namespace Verif.Wire.Path
open Verif

/-- The bytes of a path, without the terminating zero. -/
abbrev Name := List Byte

def EADDRINUSE : Nat := 98
def ENAMETOOLONG : Nat := 36

inductive File where
  /-- made by `bind` -/
  | sock (id : Nat)
  | other
  deriving DecidableEq, Repr

/-- A context that exists: its listening socket and its `uuid`. -/
structure Live where
  id : Nat
  name : Name
  deriving DecidableEq, Repr

structure World where
  files : Name → Option File
  live : List Live
  /-- the next listening socket -/
  next : Nat

def put (files : Name → Option File) (p : Name) (f : Option File) : Name → Option File := fun q => if q = p then f else files q

/-- What may fail in `vfu_create_ctx`: memory, `socket`, `fcntl`; `bind` for another reason than the path being in use; `listen`. -/
structure Os where
  early : Option Nat
  bind : Option Nat
  listen : Option Nat

/-- `vfu_create_ctx` with `tran_sock_init` (`lib/tran_sock.c:367-428`); the failures of `lib/libvfio-user.c:1962-1967` destroy a context
without `tran_data`, for which `tran_sock_fini` does nothing.  The empty path is a name the file system does not know (an abstract
address of zeros); it is in use as long as the socket is open. -/
def create (os : Os) (p : Name) (w : World) : Res Nat × World :=
  match os.early with
  | some e => (.err e, w)
  | none =>
    if p.length ≥ 108 then (.err ENAMETOOLONG, w)
    else if w.files p ≠ none then (.err EADDRINUSE, w)
    else
      match os.bind with
      | some e => (.err e, w)
      | none =>
        let bound := put w.files p (some (.sock w.next))
        match os.listen with
        | some e => (.err e, { w with files := put bound p none, next := w.next + 1 })       -- line 411
        | none => (.ok w.next, { files := bound, live := ⟨w.next, p⟩ :: w.live, next := w.next + 1 })

/-- `vfu_destroy_ctx` with `tran_sock_fini` (`lib/tran_sock.c:667-683`): removes whatever is at the path, closes the socket. -/
def destroy (id : Nat) (w : World) : World :=
  match w.live.find? (fun c => c.id == id) with
  | none => w
  | some c => { w with files := put w.files c.name none, live := w.live.filter (fun c => c.id != id) }

inductive Op where
  | create (os : Os) (p : Name)
  | destroy (id : Nat)
  /-- the process of these contexts ends without destroying them -/
  | killed (ids : List Nat)
  /-- somebody else creates or removes a file -/
  | make (p : Name)
  | remove (p : Name)

def World.isLive (w : World) (id : Nat) : Bool := w.live.any (fun c => c.id == id)

def step (w : World) : Op → World
  | .create os p => (create os p w).2
  | .destroy id => destroy id w
  | .killed ids =>
    { w with
      live := w.live.filter (fun c => !ids.contains c.id)
      files := if w.live.any (fun c => c.name == [] && ids.contains c.id) then put w.files [] none else w.files }
  | .make p => if w.files p = none ∧ p ≠ [] then { w with files := put w.files p (some .other) } else w
  | .remove p => if p ≠ [] then { w with files := put w.files p none } else w

def run (w : World) (ops : List Op) : World := ops.foldl step w

/-- Nobody else removes the path of a context that exists. -/
def Tame (w : World) : Op → Prop
  | .remove p => ∀ c ∈ w.live, c.name ≠ p
  | _ => True

def AllTame : World → List Op → Prop
  | _, [] => True
  | w, op :: ops => Tame w op ∧ AllTame (step w op) ops

/-- Who answers a client that connects. -/
def connect (w : World) (p : Name) : Option Nat :=
  match w.files p with
  | some (.sock id) => if w.isLive id = true then some id else none
  | _ => none

/-- A world in which no context was created yet. -/
def start (files : Name → Option File) : World := { files := fun p => (files p).bind fun _ => some .other, live := [], next := 0 }

structure Inv (w : World) : Prop where
  own : ∀ c ∈ w.live, w.files c.name = some (.sock c.id)
  past : ∀ p id, w.files p = some (.sock id) → id < w.next
  once : ∀ p q id, w.files p = some (.sock id) → w.files q = some (.sock id) → p = q

theorem put_same (f : Name → Option File) (p : Name) (v : Option File) : put f p v p = v := if_pos rfl

theorem put_other (f : Name → Option File) {p q : Name} (v : Option File) (h : q ≠ p) : put f p v q = f q := if_neg h

theorem put_same' {f : Name → Option File} {p q : Name} {v : Option File} {x : File} (h : put f p v q = some x) :
    q = p ∧ v = some x ∨ q ≠ p ∧ f q = some x := by
  by_cases e : q = p
  · rw [e, put_same] at h; exact .inl ⟨e, h⟩
  · rw [put_other f v e] at h; exact .inr ⟨e, h⟩

theorem put_undone {f : Name → Option File} {p : Name} (v : Option File) (h : f p = none) : put (put f p v) p none = f := by
  funext q
  by_cases e : q = p
  · rw [e, put_same, h]
  · rw [put_other _ _ e, put_other _ _ e]

theorem Inv.inj {w : World} (h : Inv w) {c d : Live} (hc : c ∈ w.live) (hd : d ∈ w.live) : c.name = d.name ↔ c.id = d.id := by
  have a := h.own c hc
  have b := h.own d hd
  constructor
  · intro e; rw [e, b] at a; injection a with a; injection a with a; exact a.symm
  · intro e; rw [← e] at b; exact h.once _ _ _ a b

/-- A file less, none of them the path of a context that is left. -/
theorem Inv.less {w : World} (h : Inv w) {p : Name} {l : List Live} (hl : ∀ c ∈ l, c ∈ w.live ∧ c.name ≠ p) :
    Inv { w with files := put w.files p none, live := l } where
  own := fun c hc => by
    show put w.files p none c.name = _
    rw [put_other _ _ (hl c hc).2]
    exact h.own c (hl c hc).1
  past := fun q id hq => by
    rcases put_same' hq with ⟨_, e⟩ | ⟨_, e⟩
    · cases e
    · exact h.past q id e
  once := fun q r id hq hr => by
    rcases put_same' hq with ⟨_, e⟩ | ⟨_, e⟩
    · cases e
    rcases put_same' hr with ⟨_, e'⟩ | ⟨_, e'⟩
    · cases e'
    exact h.once q r id e e'

/-- How `vfu_create_ctx` ends. -/
theorem create_cases (os : Os) (p : Name) (w : World) :
    (∃ e, (create os p w).1 = .err e ∧ (create os p w).2.files = w.files ∧ (create os p w).2.live = w.live ∧
      w.next ≤ (create os p w).2.next) ∨
    os.early = none ∧ os.bind = none ∧ os.listen = none ∧ p.length < 108 ∧ w.files p = none ∧
      create os p w = (.ok w.next, ⟨put w.files p (some (.sock w.next)), ⟨w.next, p⟩ :: w.live, w.next + 1⟩) := by
  unfold create
  cases h1 : os.early with
  | some e => exact .inl ⟨e, rfl, rfl, rfl, Nat.le_refl _⟩
  | none =>
    dsimp only
    by_cases h2 : p.length ≥ 108
    · rw [if_pos h2]; exact .inl ⟨_, rfl, rfl, rfl, Nat.le_refl _⟩
    rw [if_neg h2]
    by_cases h3 : w.files p ≠ none
    · rw [if_pos h3]; exact .inl ⟨_, rfl, rfl, rfl, Nat.le_refl _⟩
    rw [if_neg h3]
    have h3 := not_not.mp h3
    cases h4 : os.bind with
    | some e => exact .inl ⟨e, rfl, rfl, rfl, Nat.le_refl _⟩
    | none =>
      cases h5 : os.listen with
      | some e => exact .inl ⟨e, rfl, put_undone _ h3, rfl, Nat.le_succ _⟩
      | none => exact .inr ⟨rfl, rfl, rfl, by omega, h3, rfl⟩

theorem Inv.step {w : World} (h : Inv w) (op : Op) (ht : Tame w op) : Inv (step w op) := by
  cases op with
  | create os p =>
    show Inv (create os p w).2
    rcases create_cases os p w with ⟨e, _, h2, h3, h4⟩ | ⟨_, _, _, _, h5, h6⟩
    · exact ⟨fun c hc => by rw [h2]; exact h.own c (h3 ▸ hc),
        fun q id hq => by rw [h2] at hq; exact Nat.lt_of_lt_of_le (h.past q id hq) h4,
        fun q r id hq hr => by rw [h2] at hq hr; exact h.once q r id hq hr⟩
    · rw [h6]
      refine ⟨fun c hc => ?_, fun q id hq => ?_, fun q r id hq hr => ?_⟩
      · show put _ _ _ c.name = _
        rcases List.mem_cons.mp hc with rfl | hc
        · exact put_same ..
        · have := h.own c hc
          rw [put_other _ _ (fun e => by rw [e, h5] at this; cases this)]
          exact this
      · rcases put_same' hq with ⟨_, e⟩ | ⟨_, e⟩
        · cases e; exact Nat.lt_succ_self _
        · exact Nat.lt_succ_of_lt (h.past q id e)
      · rcases put_same' hq with ⟨e1, e⟩ | ⟨e1, e⟩ <;> rcases put_same' hr with ⟨e2, e'⟩ | ⟨e2, e'⟩
        · rw [e1, e2]
        · cases e; exact absurd (h.past r _ e') (Nat.lt_irrefl _)
        · cases e'; exact absurd (h.past q _ e) (Nat.lt_irrefl _)
        · exact h.once q r id e e'
  | destroy id =>
    show Inv (destroy id w)
    unfold destroy
    cases hf : w.live.find? (fun c => c.id == id) with
    | none => exact h
    | some c =>
      have hm := List.mem_of_find?_eq_some hf
      have hi : c.id = id := beq_iff_eq.mp (List.find?_some (p := fun c : Live => c.id == id) hf)
      refine h.less fun d hd => ?_
      obtain ⟨d1, d2⟩ := List.mem_filter.mp hd
      refine ⟨d1, fun e => ?_⟩
      have := (h.inj d1 hm).mp e
      rw [hi] at this
      simp [this] at d2
  | killed ids =>
    unfold Path.step
    dsimp only
    by_cases h1 : w.live.any (fun c => c.name == [] && ids.contains c.id) = true
    · rw [if_pos h1]
      refine h.less fun d hd => ?_
      obtain ⟨d1, d2⟩ := List.mem_filter.mp hd
      refine ⟨d1, fun e => ?_⟩
      obtain ⟨c, c1, c2⟩ := List.any_eq_true.mp h1
      obtain ⟨c3, c4⟩ := Bool.and_eq_true_iff.mp c2
      have := (h.inj d1 c1).mp (e.trans (beq_iff_eq.mp c3).symm)
      rw [this, c4] at d2
      cases d2
    · rw [if_neg h1]
      exact ⟨fun c hc => h.own c (List.mem_filter.mp hc).1, h.past, h.once⟩
  | make p =>
    unfold Path.step
    by_cases h1 : w.files p = none ∧ p ≠ []
    · dsimp only
      rw [if_pos h1]
      refine ⟨fun c hc => ?_, fun q id hq => ?_, fun q r id hq hr => ?_⟩
      · have := h.own c hc
        show put _ _ _ c.name = _
        rw [put_other _ _ (fun e => by rw [e, h1.1] at this; cases this)]
        exact this
      · rcases put_same' hq with ⟨_, e⟩ | ⟨_, e⟩
        · cases e
        · exact h.past q id e
      · rcases put_same' hq with ⟨_, e⟩ | ⟨_, e⟩
        · cases e
        rcases put_same' hr with ⟨_, e'⟩ | ⟨_, e'⟩
        · cases e'
        exact h.once q r id e e'
    · dsimp only
      rw [if_neg h1]
      exact h
  | remove p =>
    unfold Path.step
    by_cases h1 : p ≠ []
    · dsimp only
      rw [if_pos h1]
      exact h.less fun d hd => ⟨hd, ht d hd⟩
    · dsimp only
      rw [if_neg h1]
      exact h

theorem Inv.run {w : World} (h : Inv w) (ops : List Op) (ht : AllTame w ops) : Inv (run w ops) := by
  induction ops generalizing w with
  | nil => exact h
  | cons op ops ih => exact ih (h.step op ht.1) ht.2

theorem inv_start (files : Name → Option File) : Inv (start files) := by
  have hf : ∀ p id, (start files).files p ≠ some (.sock id) := by
    intro p id h
    unfold start at h
    dsimp only at h
    cases e : files p with
    | none => rw [e] at h; cases h
    | some x => rw [e] at h; cases h
  exact ⟨(fun c hc => by cases hc), fun p id h => absurd h (hf p id), fun p q id h _ => absurd h (hf p id)⟩

theorem isLive_iff {w : World} {id : Nat} : w.isLive id = true ↔ ∃ c ∈ w.live, c.id = id := by
  simp [World.isLive]

/-! ## C118 -/

/-- C118: as long as nobody else removes the path of a context, a client that connects to it reaches that context and no other; at
other paths nobody answers; two contexts never have the same path. -/
theorem C118_reach (files : Name → Option File) (ops : List Op) (ht : AllTame (start files) ops) :
    let w := run (start files) ops
    (∀ p id, connect w p = some id ↔ ⟨id, p⟩ ∈ w.live) ∧ ∀ c ∈ w.live, ∀ d ∈ w.live, c.name = d.name ↔ c.id = d.id := by
  intro w
  have h : Inv w := (inv_start files).run ops ht
  refine ⟨fun p id => ⟨fun hc => ?_, fun hm => ?_⟩, fun c hc d hd => h.inj hc hd⟩
  · unfold connect at hc
    cases hf : w.files p with
    | none => rw [hf] at hc; cases hc
    | some f =>
      rw [hf] at hc
      cases f with
      | other => cases hc
      | sock i =>
        dsimp only at hc
        by_cases hl : w.isLive i = true
        · rw [if_pos hl] at hc
          cases hc
          obtain ⟨c, c1, c2⟩ := isLive_iff.mp hl
          have := h.own c c1
          rw [c2] at this
          have := h.once _ _ _ this hf
          cases c
          dsimp only at c2 this
          rw [← c2, ← this]
          exact c1
        · rw [if_neg hl] at hc; cases hc
  · have hf := h.own _ hm
    dsimp only at hf
    unfold connect
    rw [hf]
    dsimp only
    rw [if_pos (isLive_iff.mpr ⟨_, hm, rfl⟩)]

/-- C118: `vfu_create_ctx` succeeds exactly if the operating system plays along, the path is shorter than 108 bytes and nothing is
there; it returns EADDRINUSE if something is there.  If it fails, all files and contexts are as before. -/
theorem C118_create (os : Os) (p : Name) (w : World) :
    ((∃ id, (create os p w).1 = .ok id) ↔
      os.early = none ∧ os.bind = none ∧ os.listen = none ∧ p.length < 108 ∧ w.files p = none) ∧
    (os.early = none → p.length < 108 → w.files p ≠ none → (create os p w).1 = .err EADDRINUSE) ∧
    (∀ id, (create os p w).1 = .ok id → (create os p w).2.live = ⟨id, p⟩ :: w.live ∧
      (create os p w).2.files p = some (.sock id) ∧ ∀ q, q ≠ p → (create os p w).2.files q = w.files q) ∧
    (∀ e, (create os p w).1 = .err e → (create os p w).2.files = w.files ∧ (create os p w).2.live = w.live) := by
  refine ⟨⟨fun ⟨id, hi⟩ => ?_, fun ⟨a, b, c, d, e⟩ => ?_⟩, fun a b c => ?_, fun id hi => ?_, fun e he => ?_⟩
  · rcases create_cases os p w with ⟨e, h1, _⟩ | ⟨a, b, c, d, e, _⟩
    · rw [h1] at hi; cases hi
    · exact ⟨a, b, c, d, e⟩
  · unfold create
    rw [a]
    dsimp only
    rw [if_neg (by omega), if_neg (by rw [e]; simp), b]
    dsimp only
    rw [c]
    exact ⟨_, rfl⟩
  · unfold create
    rw [a]
    dsimp only
    rw [if_neg (by omega), if_pos c]
  · rcases create_cases os p w with ⟨e, h1, _⟩ | ⟨_, _, _, _, _, h6⟩
    · rw [h1] at hi; cases hi
    · rw [h6] at hi ⊢
      cases hi
      exact ⟨rfl, put_same .., fun q hq => put_other _ _ hq⟩
  · rcases create_cases os p w with ⟨e, _, h2, h3, _⟩ | ⟨_, _, _, _, _, h6⟩
    · exact ⟨h2, h3⟩
    · rw [h6] at he; cases he

/-- C118: `vfu_destroy_ctx` removes the path of the context and no other, so the path can be used again. -/
theorem C118_destroy (files : Name → Option File) (ops : List Op) (ht : AllTame (start files) ops) :
    let w := run (start files) ops
    ∀ c ∈ w.live, (destroy c.id w).files c.name = none ∧ (∀ q, q ≠ c.name → (destroy c.id w).files q = w.files q) ∧
      (∀ d, d ∈ (destroy c.id w).live ↔ d ∈ w.live ∧ d ≠ c) ∧
      (c.name.length < 108 → ∃ id, (create ⟨none, none, none⟩ c.name (destroy c.id w)).1 = .ok id) := by
  intro w c hc
  have h : Inv w := (inv_start files).run ops ht
  have hd : destroy c.id w = { w with files := put w.files c.name none, live := w.live.filter (fun d => d.id != c.id) } := by
    unfold destroy
    cases hf : w.live.find? (fun d => d.id == c.id) with
    | none => exact absurd (beq_self_eq_true _) (List.find?_eq_none.mp hf c hc)
    | some d =>
      have hm := List.mem_of_find?_eq_some hf
      have hi : d.id = c.id := beq_iff_eq.mp (List.find?_some (p := fun d : Live => d.id == c.id) hf)
      dsimp only
      rw [(h.inj hm hc).mpr hi]
  rw [hd]
  refine ⟨put_same .., fun q hq => put_other _ _ hq, fun d => ?_, fun hl => ?_⟩
  · rw [List.mem_filter]
    refine and_congr_right fun hm => ?_
    constructor
    · rintro h1 rfl; simp at h1
    · intro h1
      refine bne_iff_ne.mpr fun e => h1 ?_
      have := (h.inj hm hc).mpr e
      cases d; cases c; cases this; cases e; rfl
  · exact ((C118_create _ _ _).1).mpr ⟨rfl, rfl, rfl, hl, put_same ..⟩

/-- Only contexts are created and destroyed. -/
def Op.isOurs : Op → Bool
  | .create .. => true
  | .destroy _ => true
  | _ => false

/-- C118: creating and destroying contexts, in whatever order and with whatever failures, changes no file but the paths of the
contexts that exist: files of others stay, and when all contexts are destroyed everything is as it was. -/
theorem C118_rest (files : Name → Option File) (ops : List Op) (ho : ∀ op ∈ ops, op.isOurs = true) (p : Name) :
    let w := run (start files) ops
    (∃ c ∈ w.live, c.name = p) ∧ (start files).files p = none ∨ w.files p = (start files).files p := by
  have key : ∀ (ops : List Op) (w : World), Inv w → (∀ op ∈ ops, op.isOurs = true) →
      ((∃ c ∈ w.live, c.name = p) ∧ (start files).files p = none ∨ w.files p = (start files).files p) →
      ((∃ c ∈ (run w ops).live, c.name = p) ∧ (start files).files p = none ∨ (run w ops).files p = (start files).files p) := by
    intro ops
    induction ops with
    | nil => exact fun w _ _ h => h
    | cons op ops ih =>
      intro w hi ho h
      have hop := ho op (List.mem_cons_self ..)
      have ht : Tame w op := by cases op <;> trivial
      refine ih (step w op) (hi.step op ht) (fun o h => ho o (List.mem_cons_of_mem _ h)) ?_
      cases op with
      | create os q =>
        show (∃ c ∈ (create os q w).2.live, c.name = p) ∧ _ ∨ (create os q w).2.files p = _
        rcases create_cases os q w with ⟨e, _, h2, h3, _⟩ | ⟨_, _, _, _, h5, h6⟩
        · rw [h2, h3]; exact h
        · rw [h6]
          by_cases e : p = q
          · subst e
            rcases h with ⟨⟨c, c1, c2⟩, h⟩ | h
            · exact .inl ⟨⟨c, List.mem_cons_of_mem _ c1, c2⟩, h⟩
            · rw [h5] at h
              exact .inl ⟨⟨_, List.mem_cons_self .., rfl⟩, h.symm⟩
          · rcases h with ⟨⟨c, c1, c2⟩, h⟩ | h
            · exact .inl ⟨⟨c, List.mem_cons_of_mem _ c1, c2⟩, h⟩
            · right
              show put _ _ _ p = _
              rw [put_other _ _ e]
              exact h
      | destroy id =>
        show (∃ c ∈ (destroy id w).live, c.name = p) ∧ _ ∨ (destroy id w).files p = _
        unfold destroy
        cases hf : w.live.find? (fun c => c.id == id) with
        | none => exact h
        | some d =>
          have hm := List.mem_of_find?_eq_some hf
          have hd : d.id = id := beq_iff_eq.mp (List.find?_some (p := fun c : Live => c.id == id) hf)
          dsimp only
          by_cases e : p = d.name
          · right
            rw [e, put_same]
            rcases h with ⟨_, h⟩ | h
            · rw [← e, h]
            · have ho := hi.own d hm
              rw [← e, h] at ho
              unfold start at ho
              dsimp only at ho
              cases hx : files p with
              | none => rw [hx] at ho; cases ho
              | some x => rw [hx] at ho; cases ho
          · rcases h with ⟨⟨c, c1, c2⟩, h⟩ | h
            · left
              refine ⟨⟨c, List.mem_filter.mpr ⟨c1, bne_iff_ne.mpr fun e' => e ?_⟩, c2⟩, h⟩
              rw [← c2]
              exact (hi.inj c1 hm).mpr (e'.trans hd.symm)
            · right
              rw [put_other _ _ e]
              exact h
      | _ => cases hop
  exact key ops _ (inv_start files) ho (.inr rfl)

/-- C118: a process that ends without `vfu_destroy_ctx` leaves its path behind: nobody answers there, and `vfu_create_ctx` refuses it
until somebody removes it. -/
theorem C118_killed (files : Name → Option File) (ops : List Op) (ht : AllTame (start files) ops) (c : Live)
    (hc : c ∈ (run (start files) ops).live) (hn : c.name ≠ []) :
    let w := step (run (start files) ops) (.killed [c.id])
    connect w c.name = none ∧ (c.name.length < 108 → (create ⟨none, none, none⟩ c.name w).1 = .err EADDRINUSE ∧
      ∃ id, (create ⟨none, none, none⟩ c.name (step w (.remove c.name))).1 = .ok id) := by
  intro w
  have h : Inv (run (start files) ops) := (inv_start files).run ops ht
  have hw : Inv w := h.step _ trivial
  have hf : w.files c.name = some (.sock c.id) := by
    show (if _ then put _ _ _ else _ : Name → Option File) c.name = _
    by_cases h1 : (run (start files) ops).live.any (fun d => d.name == [] && [c.id].contains d.id) = true
    · rw [if_pos h1, put_other _ _ hn]; exact h.own c hc
    · rw [if_neg h1]; exact h.own c hc
  refine ⟨?_, fun hl => ⟨(C118_create _ _ _).2.1 rfl hl (by rw [hf]; simp), ?_⟩⟩
  · unfold connect
    rw [hf]
    dsimp only
    rw [if_neg]
    intro hl
    obtain ⟨d, d1, d2⟩ := isLive_iff.mp hl
    have := (List.mem_filter.mp d1).2
    simp [d2] at this
  · refine ((C118_create _ _ _).1).mpr ⟨rfl, rfl, rfl, hl, ?_⟩
    show (if c.name ≠ [] then _ else _ : World).files c.name = none
    rw [if_pos hn]
    exact put_same ..

/-! ## Cases -/

def willing : Os := ⟨none, none, none⟩
def nvme : Name := [0x6e#8, 0x76#8]
def gpio : Name := [0x67#8, 0x70#8]
def disk : Name → Option File := fun p => if p = [0x78#8] then some .other else none

/-- Two devices; a third is refused the path of the first; the first is restarted. -/
def day : List Op := [.create willing nvme, .create willing gpio, .create willing nvme, .create willing [0x78#8], .destroy 0,
  .create ⟨none, none, some EACCES⟩ nvme, .create willing nvme]

example : AllTame (start disk) day ∧ (run (start disk) day).live = [⟨3, nvme⟩, ⟨1, gpio⟩] ∧
    connect (run (start disk) day) nvme = some 3 ∧ connect (run (start disk) day) gpio = some 1 :=
  ⟨⟨trivial, trivial, trivial, trivial, trivial, trivial, trivial, trivial⟩, by decide, by decide, by decide⟩

example : ∀ op ∈ day, op.isOurs = true := by decide

/-- C118 if somebody else removes the path of a context: the path may be given to another one, whose path `vfu_destroy_ctx` of the
first then removes. -/
theorem C118_stolen :
    let ops := [Op.create willing nvme, .remove nvme, .create willing nvme]
    connect (run (start disk) ops) nvme = some 1 ∧ connect (run (start disk) (ops ++ [.destroy 0])) nvme = none ∧
    (run (start disk) (ops ++ [.destroy 0])).live = [⟨1, nvme⟩] := by decide

end Verif.Wire.Path
