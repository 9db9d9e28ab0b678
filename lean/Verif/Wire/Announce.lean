import Verif.Wire.Refused
import Verif.Wire.Version
import Verif.Mig.Props

/-!
# C97: what the server announces

`format_server_capabilities` and the version reply.  json-c is not part of the library: its allocations succeed or fail as a list says,
its printer is a function whose text the parser reads back. -/

namespace Verif.Wire
open Verif
open Verif.Dma (Fd)

/-! ## The model -/

/-- How a step of the construction ends: with a value and the allocations to come, without memory, or in a crash. -/
inductive Made (α : Type) where
  | ok (a : α) (mem : List Bool)
  | nomem
  | crash

def Made.bind {α β : Type} : Made α → (α → List Bool → Made β) → Made β
  | .ok a m, f => f a m
  | .nomem, _ => .nomem
  | .crash, _ => .crash

/-- The next allocation; those after the end of the list succeed. -/
def alloc1 : List Bool → Bool × List Bool
  | [] => (true, [])
  | b :: m => (b, m)

/-- `json_object_new_object` and the check of its result (`lib/tran.c:350,364,381,398`). -/
def newObj (mem : List Bool) : Made (List (String × Json)) :=
  match alloc1 mem with
  | (true, m) => .ok [] m
  | (false, _) => .nomem

/-- `lib/tran.c:301-320` `json_add`: the entry may fail to be allocated. -/
def addVal (fs : List (String × Json)) (k : String) (v : Json) (mem : List Bool) : Made (List (String × Json)) :=
  match alloc1 mem with
  | (true, m) => .ok (fs ++ [(k, v)]) m
  | (false, _) => .nomem

/-- `lib/tran.c:322-335` `json_add_uint64`: the result of `json_object_new_int64` is not checked; NULL stands for the JSON null.  332:
the assertion. -/
def addInt (fs : List (String × Json)) (k : String) (v : Nat) (mem : List Bool) : Made (List (String × Json)) :=
  if v > 9223372036854775807 then .crash
  else
    match alloc1 mem with
    | (a, m) => addVal fs k (if a = true then .int v else .other) m

/-- `lib/tran.c:362-375`, the migration object. -/
def addMig (fs : List (String × Json)) : Option Nat → List Bool → Made (List (String × Json))
  | none, mem => .ok fs mem
  | some pg, mem =>
    (newObj mem).bind fun o mem => (addInt o "pgsize" pg mem).bind fun o mem => addVal fs "migration" (.obj o) mem

/-- `lib/tran.c:377-395`, the twin socket object; the result of `json_object_new_boolean` is checked. -/
def addTwin (fs : List (String × Json)) : Option Nat → List Bool → Made (List (String × Json))
  | none, mem => .ok fs mem
  | some i, mem =>
    (newObj mem).bind fun o mem =>
      match alloc1 mem with
      | (false, _) => .nomem
      | (true, mem) =>
        (addVal o "supported" (.bool true) mem).bind fun o mem =>
          (addInt o "fd_index" i mem).bind fun o mem => addVal fs "twin_socket" (.obj o) mem

/-- `lib/tran.c:48` and `lib/private.h:55`. -/
def SERVER_FDS : Nat := 8
def SERVER_XFER : Nat := 1048576

/-- `lib/tran.c:350-400`: the document. -/
def build (pg twin : Option Nat) (mem : List Bool) : Made Json :=
  (newObj mem).bind fun fs mem =>
    (addInt fs "max_msg_fds" SERVER_FDS mem).bind fun fs mem =>
      (addInt fs "max_data_xfer_size" SERVER_XFER mem).bind fun fs mem =>
        (addMig fs pg mem).bind fun fs mem =>
          (addTwin fs twin mem).bind fun fs mem =>
            (newObj mem).bind fun o mem =>
              (addVal o "capabilities" (.obj fs) mem).bind fun o mem => .ok (.obj o) mem

/-- `lib/tran.c:341-410` `format_server_capabilities`.  `pr`: the printer; 402: its result goes to `strdup` unchecked. -/
def format (pr : Json → Option (List Byte)) (pg twin : Option Nat) (mem : List Bool) : Made (List Byte) :=
  (build pg twin mem).bind fun j mem =>
    match pr j with
    | none => .crash
    | some l =>
      match alloc1 mem with
      | (true, mem) => .ok l mem
      | (false, _) => .nomem

/-- `socketpair` failed. -/
def noPair : Except Nat Fd → Bool
  | .error _ => true
  | .ok _ => false

/-- `lib/tran.c:456-498` `tran_negotiate` with the text that `send_version` (411-453) makes; `none`: the server crashes.  The page
size is that of the system when it is announced (`lib/migration.c:158,429-442`). -/
def greet (snd : Send) (json : List Byte → Option Json) (pr : Json → Option (List Byte)) (page : Nat) (hasMig wantTwin : Bool)
    (pair : Except Nat Fd) (mem : List Bool) (recv : Except Nat (Hdr × List Byte)) : Option Nego :=
  let plainly := some (negotiate snd json page hasMig wantTwin pair (fun _ => []) recv)
  match recv with
  | .error _ => plainly
  | .ok (h, body) =>
    match recvVersion json page hasMig h body with
    | .error _ => plainly
    | .ok (c, _) =>
      let two : Bool := decide (c.twin = true ∧ wantTwin = true ∧ c.maxFds > 0)
      if two = true ∧ noPair pair = true then plainly
      else
        match format pr (if hasMig = true then some page else none) (if two = true then some 0 else none) mem with
        | .ok l _ => some (negotiate snd json page hasMig wantTwin pair (fun _ => l ++ [0#8]) recv)
        | .nomem => some { res := .error ENOMEM, twin := false, sent := [] }
        | .crash => none

/-! ## What is claimed -/

/-- The document says: 8 descriptors to a message, 1 MiB of data to a transfer, the page size if the device can be migrated, and a
second socket, the first descriptor of the reply, if there is one. -/
structure Announces (j : Json) (pg : Option Nat) (twin : Bool) : Prop where
  caps : ∃ fs, j.at ["capabilities"] = some (.obj fs)
  fds : j.at ["capabilities", "max_msg_fds"] = some (.int 8)
  xfer : j.at ["capabilities", "max_data_xfer_size"] = some (.int 1048576)
  mig : ObjIfThere (j.at ["capabilities", "migration"])
  pgsize : j.at ["capabilities", "migration", "pgsize"] = pg.map fun n => .int n
  tw : ObjIfThere (j.at ["capabilities", "twin_socket"])
  supported : j.at ["capabilities", "twin_socket", "supported"] = if twin = true then some (.bool true) else none
  index : j.at ["capabilities", "twin_socket", "fd_index"] = if twin = true then some (.int 0) else none

/-- The same with null instead of numbers that there was no memory for. -/
structure Mumbles (j : Json) (pg : Option Nat) (twin : Bool) : Prop where
  fds : j.at ["capabilities", "max_msg_fds"] = some (.int 8) ∨ j.at ["capabilities", "max_msg_fds"] = some .other
  xfer : j.at ["capabilities", "max_data_xfer_size"] = some (.int 1048576) ∨
    j.at ["capabilities", "max_data_xfer_size"] = some .other
  pgsize : (j.at ["capabilities", "migration", "pgsize"] = pg.map fun n => .int n) ∨
    j.at ["capabilities", "migration", "pgsize"] = some .other
  supported : j.at ["capabilities", "twin_socket", "supported"] = if twin = true then some (.bool true) else none

/-! ## The document -/

/-- The migration object. -/
def migPart (c : Bool) : Option Nat → List (String × Json)
  | none => []
  | some n => [("migration", .obj [("pgsize", if c = true then .int n else .other)])]

/-- What is built, by which numbers there was memory for. -/
def outline (pg : Option Nat) (twin : Bool) (a b c d : Bool) : Json :=
  .obj [("capabilities", .obj (
    [("max_msg_fds", if a = true then .int 8 else .other), ("max_data_xfer_size", if b = true then .int 1048576 else .other)] ++
    migPart c pg ++
    (if twin = true then [("twin_socket", .obj [("supported", .bool true), ("fd_index", if d = true then .int 0 else .other)])]
      else [])))]

theorem Made.bind_ok {α β : Type} {x : Made α} {f : α → List Bool → Made β} {b : β} {m : List Bool} (h : x.bind f = .ok b m) :
    ∃ a m', x = .ok a m' ∧ f a m' = .ok b m := by
  cases x with
  | ok a m' => exact ⟨a, m', rfl, h⟩
  | nomem => cases h
  | crash => cases h

theorem Made.bind_crash {α β : Type} {x : Made α} {f : α → List Bool → Made β} (h : x.bind f = .crash) :
    x = .crash ∨ ∃ a m', x = .ok a m' ∧ f a m' = .crash := by
  cases x with
  | ok a m' => exact .inr ⟨a, m', rfl, h⟩
  | nomem => cases h
  | crash => exact .inl rfl

theorem newObj_ok {mem m : List Bool} {fs : List (String × Json)} (h : newObj mem = .ok fs m) : fs = [] := by
  unfold newObj at h
  rcases hm : alloc1 mem with ⟨b, m'⟩
  rw [hm] at h
  cases b <;> cases h
  rfl

theorem addVal_ok {mem m : List Bool} {fs gs : List (String × Json)} {k : String} {v : Json} (h : addVal fs k v mem = .ok gs m) :
    gs = fs ++ [(k, v)] := by
  unfold addVal at h
  rcases hm : alloc1 mem with ⟨b, m'⟩
  rw [hm] at h
  cases b <;> cases h
  rfl

theorem addInt_ok {mem m : List Bool} {fs gs : List (String × Json)} {k : String} {v : Nat} (h : addInt fs k v mem = .ok gs m) :
    ∃ a : Bool, gs = fs ++ [(k, if a = true then .int v else .other)] := by
  unfold addInt at h
  by_cases hv : v > 9223372036854775807
  · rw [if_pos hv] at h; cases h
  · rw [if_neg hv] at h
    rcases hm : alloc1 mem with ⟨b, m'⟩
    rw [hm] at h
    exact ⟨b, addVal_ok h⟩

theorem newObj_crash (mem : List Bool) : newObj mem ≠ .crash := by
  unfold newObj
  rcases alloc1 mem with ⟨b, m'⟩
  cases b <;> simp

theorem addVal_crash (fs : List (String × Json)) (k : String) (v : Json) (mem : List Bool) : addVal fs k v mem ≠ .crash := by
  unfold addVal
  rcases alloc1 mem with ⟨b, m'⟩
  cases b <;> simp

theorem addInt_crash {fs : List (String × Json)} {k : String} {v : Nat} {mem : List Bool} (hv : v ≤ 9223372036854775807) :
    addInt fs k v mem ≠ .crash := by
  unfold addInt
  rw [if_neg (show ¬ v > 9223372036854775807 by omega)]
  rcases alloc1 mem with ⟨b, m'⟩
  exact addVal_crash fs k _ m'

theorem addMig_ok {mem m : List Bool} {fs gs : List (String × Json)} {pg : Option Nat} (h : addMig fs pg mem = .ok gs m) :
    ∃ c : Bool, gs = fs ++ migPart c pg := by
  cases pg with
  | none => cases h; exact ⟨true, (List.append_nil _).symm⟩
  | some n =>
    obtain ⟨o, m1, h1, h⟩ := Made.bind_ok h
    cases newObj_ok h1
    obtain ⟨o, m2, h2, h⟩ := Made.bind_ok h
    obtain ⟨c, rfl⟩ := addInt_ok h2
    exact ⟨c, addVal_ok h⟩

theorem addTwin_ok {mem m : List Bool} {fs gs : List (String × Json)} {twin : Bool}
    (h : addTwin fs (if twin = true then some 0 else none) mem = .ok gs m) :
    ∃ d : Bool, gs = fs ++ (if twin = true then
      [("twin_socket", .obj [("supported", .bool true), ("fd_index", if d = true then .int 0 else .other)])] else []) := by
  cases twin with
  | false => cases h; exact ⟨true, (List.append_nil _).symm⟩
  | true =>
    obtain ⟨o, m1, h1, h⟩ := Made.bind_ok h
    cases newObj_ok h1
    rcases hm : alloc1 m1 with ⟨b, m2⟩
    rw [hm] at h
    cases b with
    | false => cases h
    | true =>
      obtain ⟨o, m3, h3, h⟩ := Made.bind_ok h
      cases addVal_ok h3
      obtain ⟨o, m4, h4, h⟩ := Made.bind_ok h
      obtain ⟨d, rfl⟩ := addInt_ok h4
      exact ⟨d, addVal_ok h⟩

theorem build_ok {pg : Option Nat} {twin : Bool} {mem m : List Bool} {j : Json}
    (h : build pg (if twin = true then some 0 else none) mem = .ok j m) : ∃ a b c d, j = outline pg twin a b c d := by
  obtain ⟨o, m1, h1, h⟩ := Made.bind_ok h
  cases newObj_ok h1
  obtain ⟨o, m2, h2, h⟩ := Made.bind_ok h
  obtain ⟨a, rfl⟩ := addInt_ok h2
  obtain ⟨o, m3, h3, h⟩ := Made.bind_ok h
  obtain ⟨b, rfl⟩ := addInt_ok h3
  obtain ⟨o, m4, h4, h⟩ := Made.bind_ok h
  obtain ⟨c, rfl⟩ := addMig_ok h4
  obtain ⟨o, m5, h5, h⟩ := Made.bind_ok h
  obtain ⟨d, rfl⟩ := addTwin_ok h5
  obtain ⟨o, m6, h6, h⟩ := Made.bind_ok h
  cases newObj_ok h6
  obtain ⟨o, m7, h7, h⟩ := Made.bind_ok h
  cases addVal_ok h7
  cases h
  exact ⟨a, b, c, d, rfl⟩

theorem build_crash {pg twin : Option Nat} {mem : List Bool} (hp : ∀ n, pg = some n → n ≤ 9223372036854775807)
    (ht : ∀ n, twin = some n → n ≤ 9223372036854775807) : build pg twin mem ≠ .crash := by
  intro h
  rcases Made.bind_crash h with h | ⟨o, m1, h1, h⟩
  · exact newObj_crash _ h
  rcases Made.bind_crash h with h | ⟨o, m1, h1, h⟩
  · exact addInt_crash (by decide) h
  rcases Made.bind_crash h with h | ⟨o, m1, h1, h⟩
  · exact addInt_crash (by decide) h
  rcases Made.bind_crash h with h | ⟨o, m1, h1, h⟩
  · cases pg with
    | none => cases h
    | some n =>
      rcases Made.bind_crash h with h | ⟨o, m1, h1, h⟩
      · exact newObj_crash _ h
      rcases Made.bind_crash h with h | ⟨o, m1, h1, h⟩
      · exact addInt_crash (hp n rfl) h
      exact addVal_crash _ _ _ _ h
  rcases Made.bind_crash h with h | ⟨o, m1, h1, h⟩
  · cases twin with
    | none => cases h
    | some n =>
      rcases Made.bind_crash h with h | ⟨o, m1, h1, h⟩
      · exact newObj_crash _ h
      rcases hm : alloc1 m1 with ⟨b, m2⟩
      rw [hm] at h
      cases b with
      | false => cases h
      | true =>
        rcases Made.bind_crash h with h | ⟨o, m1, h1, h⟩
        · exact addVal_crash _ _ _ _ h
        rcases Made.bind_crash h with h | ⟨o, m1, h1, h⟩
        · exact addInt_crash (ht n rfl) h
        exact addVal_crash _ _ _ _ h
  rcases Made.bind_crash h with h | ⟨o, m1, h1, h⟩
  · exact newObj_crash _ h
  rcases Made.bind_crash h with h | ⟨o, m1, h1, h⟩
  · exact addVal_crash _ _ _ _ h
  cases h

theorem outline_announces (pg : Option Nat) (twin : Bool) : Announces (outline pg twin true true true true) pg twin := by
  cases pg <;> cases twin <;>
    exact ⟨⟨_, rfl⟩, rfl, rfl, (fun v hv => by cases hv <;> exact ⟨_, rfl⟩), rfl, (fun v hv => by cases hv <;> exact ⟨_, rfl⟩), rfl, rfl⟩

theorem outline_mumbles (pg : Option Nat) (twin a b c d : Bool) : Mumbles (outline pg twin a b c d) pg twin := by
  cases pg <;> cases twin <;> cases a <;> cases b <;> cases c <;>
    exact ⟨by first | exact .inl rfl | exact .inr rfl, by first | exact .inl rfl | exact .inr rfl,
      by first | exact .inl rfl | exact .inr rfl, rfl⟩

/-- C97: with memory, the document announces what the server offers. -/
theorem C97_document (pg : Option Nat) (hp : ∀ n, pg = some n → n ≤ 9223372036854775807) (twin : Bool) :
    ∃ j, build pg (if twin = true then some 0 else none) [] = .ok j [] ∧ Announces j pg twin := by
  refine ⟨_, ?_, outline_announces pg twin⟩
  cases pg with
  | none => cases twin <;> rfl
  | some n =>
    have hn : ¬ n > 9223372036854775807 := by have := hp n rfl; omega
    have e : addInt [] "pgsize" n [] = .ok [("pgsize", .int n)] [] := by
      unfold addInt
      rw [if_neg hn]
      rfl
    cases twin <;>
    · unfold build
      show ((addMig _ (some n) []).bind _) = _
      unfold addMig
      show (((addInt [] "pgsize" n []).bind _).bind _) = _
      rw [e]
      rfl

/-- C97: whatever allocations fail, the document says nothing else, but may have null instead of numbers. -/
theorem C97_memory {pg : Option Nat} {twin : Bool} {mem m : List Bool} {j : Json}
    (h : build pg (if twin = true then some 0 else none) mem = .ok j m) : Mumbles j pg twin := by
  obtain ⟨a, b, c, d, rfl⟩ := build_ok h
  exact outline_mumbles pg twin a b c d

/-- C97: read by the rules by which the server reads a client's capabilities, the document means exactly this. -/
theorem C97_read {j : Json} {pg : Option Nat} {twin : Bool} (hp : ∀ n, pg = some n → n ≤ 9223372036854775807)
    (h : Announces j pg twin) (c : Caps) :
    Asks j c ↔ c = { maxFds := 8, maxXfer := 1048576, pgsize := pg.getD 0, twin } := by
  have size : ∀ n : Nat, n ≤ 9223372036854775807 → toSize n = n := by
    intro n hn; unfold toSize; omega
  constructor
  · intro ha
    obtain ⟨f, x, p, t⟩ := c
    have e1 : f = 8 := by
      rcases ha.fds with ⟨e, _⟩ | ⟨i, e, e'⟩
      · rw [h.fds] at e; cases e
      · rw [h.fds] at e; cases e; exact e'
    have e2 : x = 1048576 := by
      rcases ha.xfer with ⟨e, _⟩ | ⟨i, e, e'⟩
      · rw [h.xfer] at e; cases e
      · rw [h.xfer] at e; cases e; exact e'
    have e3 : p = pg.getD 0 := by
      rcases ha.pgsize with ⟨e, e'⟩ | ⟨i, e, e'⟩
      · rw [h.pgsize] at e
        cases pg with
        | none => exact e'
        | some n => cases e
      · rw [h.pgsize] at e
        cases pg with
        | none => cases e
        | some n => cases e; exact e'.trans (size n (hp n rfl))
    have e4 : t = twin := by
      rcases ha.twin with ⟨e, e'⟩ | ⟨i, e, e'⟩
      · rw [h.supported] at e
        cases twin with
        | false => exact e'
        | true => cases e
      · rw [h.supported] at e
        cases twin with
        | false => cases e
        | true => cases e; exact e'
    rw [e1, e2, e3, e4]
  · rintro rfl
    refine ⟨?_, h.mig, h.tw, .inr ⟨8, h.fds, rfl⟩, .inr ⟨1048576, h.xfer, rfl⟩, ?_, ?_⟩
    · intro v hv
      obtain ⟨fs, hf⟩ := h.caps
      rw [hf] at hv; cases hv; exact ⟨fs, rfl⟩
    · cases pg with
      | none => exact .inl ⟨h.pgsize, rfl⟩
      | some n => exact .inr ⟨n, h.pgsize, (size n (hp n rfl)).symm⟩
    · have := h.supported
      cases twin with
      | false => exact .inl ⟨this, rfl⟩
      | true => exact .inr ⟨true, this, rfl⟩

/-! ## The reply -/

/-- The printer can print the document, and the parser reads it back; the text has no NUL in it and is shorter than 4 GiB. -/
def Speaks (pr : Json → Option (List Byte)) (json : List Byte → Option Json) (j : Json) : Prop :=
  ∃ l, pr j = some l ∧ json l = some j ∧ 0#8 ∉ l ∧ l.length < 4294967000

theorem takeWhile_nul {l : List Byte} (h : 0#8 ∉ l) : (l ++ [0#8]).takeWhile (· != 0#8) = l := by
  induction l with
  | nil => rfl
  | cons b l ih =>
    have hb : b ≠ 0#8 := fun e => h (e ▸ List.mem_cons_self)
    rw [List.cons_append, List.takeWhile_cons]
    rw [if_pos (by simpa using hb), ih (fun hm => h (List.mem_cons_of_mem _ hm))]

theorem format_ok {pr : Json → Option (List Byte)} {pg twin : Option Nat} {j : Json} {l : List Byte}
    (hb : build pg twin [] = .ok j []) (hp : pr j = some l) : format pr pg twin [] = .ok l [] := by
  unfold format
  rw [hb]
  show (match pr j with | none => _ | some l => _) = _
  rw [hp]
  rfl

/-- C97: the reply to a version request the server agrees to is, by the server's own rules, a version message that can be agreed to:
it announces 8 descriptors, 1 MiB, the page size if the device can be migrated, and a second socket exactly if one descriptor comes
with it. -/
theorem C97_greeting (snd : Send) (hs : Healthy snd) (json : List Byte → Option Json) (pr : Json → Option (List Byte))
    (page : Nat) (hpg : page ≤ 9223372036854775807) (hasMig wantTwin : Bool)
    (hsp : ∀ (two : Bool) (j : Json),
      build (if hasMig = true then some page else none) (if two = true then some 0 else none) [] = .ok j [] → Speaks pr json j)
    (fd : Fd) (h : Hdr) (hf : h.Fits) (body : List Byte) {c : Caps} (ha : Accepts json page hasMig h body c) :
    ∃ w rb two, greet snd json pr page hasMig wantTwin (.ok fd) [] (.ok (h, body)) =
        some { res := .ok c, twin := two, sent := [{ bytes := w, fds := if two = true then [fd] else [] }] } ∧
      (two = true ↔ c.twin = true ∧ wantTwin = true ∧ 0 < c.maxFds) ∧
      IsReply h 0 rb w ∧ leAt rb 2 2 = min (leAt body 2 2) 2 ∧
      (∃ j, json (text rb) = some j ∧ Announces j (if hasMig = true then some page else none) two) ∧
      Accepts json page hasMig h rb
        { maxFds := 8, maxXfer := 1048576, pgsize := if hasMig = true then page else 0, twin := two } := by
  have hp : ∀ n, (if hasMig = true then some page else none) = some n → n ≤ 9223372036854775807 := by
    intro n hn
    cases hasMig with
    | false => cases hn
    | true => cases hn; exact hpg
  have hrv := (recvVersion_iff json page hasMig h body c (leAt body 2 2)).mpr ⟨ha, rfl⟩
  generalize htwo : decide (c.twin = true ∧ wantTwin = true ∧ c.maxFds > 0) = two
  obtain ⟨j, hj, han⟩ := C97_document (if hasMig = true then some page else none) hp two
  obtain ⟨l, hl, hbk, hnul, hlen⟩ := hsp two j hj
  have hfm := format_ok hj hl
  have hg : greet snd json pr page hasMig wantTwin (.ok fd) [] (.ok (h, body)) =
      some (negotiate snd json page hasMig wantTwin (.ok fd) (fun _ => l ++ [0#8]) (.ok (h, body))) := by
    unfold greet
    dsimp only
    rw [hrv]
    dsimp only
    rw [htwo, if_neg (by rintro ⟨_, hh⟩; cases hh), hfm]
  rcases C50_negotiate snd hs json page hasMig wantTwin fd (fun _ => l ++ [0#8]) h hf body
      (fun i => by simp only [List.length_append, List.length_singleton, U32]; omega) with
    ⟨c', idx, fds, w, hacc, he, hi, _, hfi⟩ | ⟨hno, _⟩
  · have hc : c' = c := by
      have := (recvVersion_iff json page hasMig h body c' (leAt body 2 2)).mpr ⟨hacc, rfl⟩
      rw [hrv] at this; cases this; rfl
    subst hc
    have hfds : fds = if two = true then [fd] else [] := by
      by_cases ht : c'.twin = true ∧ wantTwin = true ∧ c'.maxFds > 0
      · rw [if_pos ht] at hfi
        rw [← htwo, decide_eq_true ht]
        exact (Prod.mk.inj hfi).1
      · rw [if_neg ht] at hfi
        rw [← htwo, decide_eq_false ht]
        exact (Prod.mk.inj hfi).1
    subst hfds
    have hrb : enc 2 0 ++ enc 2 (min (leAt body 2 2) 2) ++ (l ++ [0#8]) =
        enc 2 0 ++ (enc 2 (min (leAt body 2 2) 2) ++ (l ++ [0#8])) := List.append_assoc ..
    have htx : text (enc 2 0 ++ enc 2 (min (leAt body 2 2) 2) ++ (l ++ [0#8])) = l := by
      unfold text
      have : (enc 2 0 ++ enc 2 (min (leAt body 2 2) 2) ++ (l ++ [0#8])).drop 4 = l ++ [0#8] :=
        List.drop_left' (by simp [enc_length])
      rw [this, takeWhile_nul hnul]
    have hbk : json (text (enc 2 0 ++ enc 2 (min (leAt body 2 2) 2) ++ (l ++ [0#8]))) = some j := by
      rw [htx]; exact hbk
    refine ⟨w, _, two, hg.trans (by rw [he, htwo]), ?_, hi, ?_, ⟨j, hbk, han⟩, ?_⟩
    · rw [← htwo]; simp
    · exact leAt_field (enc 2 0) (l ++ [0#8]) 2 _ 2 (enc_length ..) (by simp only [Nat.reducePow]; omega)
    · have hlen4 : (enc 2 0 ++ enc 2 (min (leAt body 2 2) 2) ++ (l ++ [0#8])).length = 4 + (l.length + 1) := by
        simp only [List.length_append, enc_length, List.length_singleton]
      refine ⟨ha.cmd, by omega, ?_, (fun hx => absurd hx (by omega)), fun _ => ?_, fun _ => ⟨j, hbk, ?_⟩, ?_, ?_⟩
      · rw [hrb]
        exact leAt_field [] _ 2 0 0 rfl (by decide)
      · rw [← List.append_assoc, List.getLast?_append]; rfl
      · refine (C97_read hp han _).mpr ?_
        cases hasMig <;> rfl
      · intro _ hm
        rw [hm]
        exact .inr rfl
      · exact ⟨(by decide : (0 : Int) ≤ 8), (by decide : (8 : Int) ≤ 1024)⟩
  · exact absurd ha (hno c)

/-! ## Short of memory -/

/-- The allocations in the order in which they are made, for a device that can be migrated or not, with a second socket or not:
`true` where the server notices that one fails.  Those of the four numbers it does not notice. -/
def outlay (mig twin : Bool) : List Bool :=
  [true, false, true, false, true] ++ (if mig = true then [true, false, true, true] else []) ++
    (if twin = true then [true, true, true, false, true, true] else []) ++ [true, true, true]

/-- One of the allocations the server needs fails. -/
def Lacks (need mem : List Bool) : Prop :=
  ∃ i : Nat, need[i]? = some true ∧ mem[i]? = some false

theorem lacks_append (a b mem : List Bool) : Lacks (a ++ b) mem ↔ Lacks a mem ∨ Lacks b (mem.drop a.length) := by
  constructor
  · rintro ⟨i, h1, h2⟩
    by_cases hi : i < a.length
    · exact .inl ⟨i, by rwa [List.getElem?_append_left hi] at h1, h2⟩
    · refine .inr ⟨i - a.length, ?_, ?_⟩
      · rwa [List.getElem?_append_right (by omega)] at h1
      · rw [List.getElem?_drop, show a.length + (i - a.length) = i by omega]; exact h2
  · rintro (⟨i, h1, h2⟩ | ⟨i, h1, h2⟩)
    · have hi : i < a.length := by
        by_cases hi : i < a.length
        · exact hi
        · rw [List.getElem?_eq_none (by omega)] at h1; cases h1
      exact ⟨i, by rw [List.getElem?_append_left hi]; exact h1, h2⟩
    · refine ⟨a.length + i, ?_, ?_⟩
      · rw [List.getElem?_append_right (by omega), show a.length + i - a.length = i by omega]; exact h1
      · rw [List.getElem?_drop] at h2; exact h2

/-- A step fails exactly if an allocation that it needs fails, and makes as many as are listed. -/
def Uses {α : Type} (x : Made α) (need mem : List Bool) : Prop :=
  (Lacks need mem → x = .nomem) ∧ (¬ Lacks need mem → ∃ a, x = .ok a (mem.drop need.length))

theorem Uses.bind {α β : Type} {x : Made α} {f : α → List Bool → Made β} {n1 n2 mem : List Bool} (hx : Uses x n1 mem)
    (hf : ∀ a, Uses (f a (mem.drop n1.length)) n2 (mem.drop n1.length)) : Uses (x.bind f) (n1 ++ n2) mem := by
  constructor
  · intro h
    by_cases h1 : Lacks n1 mem
    · rw [hx.1 h1]; rfl
    · obtain ⟨a, ha⟩ := hx.2 h1
      rw [ha]
      exact (hf a).1 (((lacks_append n1 n2 mem).mp h).resolve_left h1)
  · intro h
    have h1 : ¬ Lacks n1 mem := fun q => h ((lacks_append n1 n2 mem).mpr (.inl q))
    obtain ⟨a, ha⟩ := hx.2 h1
    rw [ha]
    obtain ⟨b, hb⟩ := (hf a).2 (fun q => h ((lacks_append n1 n2 mem).mpr (.inr q)))
    refine ⟨b, ?_⟩
    rw [List.length_append, ← List.drop_drop]
    exact hb

theorem lacks_one (mem : List Bool) : Lacks [true] mem ↔ (alloc1 mem).1 = false := by
  constructor
  · rintro ⟨i, h1, h2⟩
    cases i with
    | succ i => cases h1
    | zero =>
      cases mem with
      | nil => cases h2
      | cons b m => cases h2; rfl
  · intro h
    cases mem with
    | nil => cases h
    | cons b m => exact ⟨0, rfl, congrArg some h⟩

theorem alloc1_drop (mem : List Bool) : (alloc1 mem).2 = mem.drop 1 := by
  cases mem <;> rfl

/-- One allocation whose failure is noticed. -/
theorem uses_one {α : Type} {x : Made α} {a : α} {mem : List Bool} (h0 : (alloc1 mem).1 = false → x = .nomem)
    (h1 : (alloc1 mem).1 = true → x = .ok a (alloc1 mem).2) : Uses x [true] mem := by
  refine ⟨fun h => h0 ((lacks_one mem).mp h), fun h => ⟨a, ?_⟩⟩
  rw [h1 (by rw [lacks_one] at h; simpa using h), alloc1_drop]
  rfl

theorem newObj_uses (mem : List Bool) : Uses (newObj mem) [true] mem := by
  unfold newObj
  rcases hm : alloc1 mem with ⟨b, m⟩
  refine uses_one (a := []) ?_ ?_ <;> intro h <;> rw [hm] at h <;> cases h
  · rfl
  · rw [hm]

theorem addVal_uses (fs : List (String × Json)) (k : String) (v : Json) (mem : List Bool) :
    Uses (addVal fs k v mem) [true] mem := by
  unfold addVal
  rcases hm : alloc1 mem with ⟨b, m⟩
  refine uses_one (a := fs ++ [(k, v)]) ?_ ?_ <;> intro h <;> rw [hm] at h <;> cases h
  · rfl
  · rw [hm]

theorem addInt_uses (fs : List (String × Json)) (k : String) {v : Nat} (hv : v ≤ 9223372036854775807) (mem : List Bool) :
    Uses (addInt fs k v mem) [false, true] mem := by
  unfold addInt
  rw [if_neg (show ¬ v > 9223372036854775807 by omega)]
  have h := addVal_uses fs k (if (alloc1 mem).1 = true then .int v else .other) (mem.drop 1)
  rw [← alloc1_drop] at h
  have hno : ¬ Lacks [false] mem := by
    rintro ⟨i, h1, _⟩
    cases i <;> cases h1
  have hl : Lacks [false, true] mem ↔ Lacks [true] (alloc1 mem).2 := by
    rw [alloc1_drop]
    exact (lacks_append [false] [true] mem).trans (or_iff_right hno)
  refine ⟨fun q => h.1 (hl.mp q), fun q => ?_⟩
  obtain ⟨a, ha⟩ := h.2 (fun r => q (hl.mpr r))
  refine ⟨a, ha.trans ?_⟩
  rw [alloc1_drop, List.drop_drop]
  rfl

theorem done_uses {α : Type} (a : α) (mem : List Bool) : Uses (.ok a mem) [] mem :=
  ⟨(fun ⟨i, h, _⟩ => by cases i <;> cases h), fun _ => ⟨a, rfl⟩⟩

theorem addMig_uses (fs : List (String × Json)) (hasMig : Bool) {page : Nat} (hp : page ≤ 9223372036854775807) (mem : List Bool) :
    Uses (addMig fs (if hasMig = true then some page else none) mem) (if hasMig = true then [true, false, true, true] else []) mem := by
  cases hasMig with
  | false => exact done_uses fs mem
  | true =>
    exact (newObj_uses mem).bind (n2 := [false, true] ++ [true]) fun o =>
      (addInt_uses o "pgsize" hp _).bind fun o => addVal_uses fs "migration" (.obj o) _

theorem addTwin_uses (fs : List (String × Json)) (twin : Bool) (mem : List Bool) :
    Uses (addTwin fs (if twin = true then some 0 else none) mem)
      (if twin = true then [true, true, true, false, true, true] else []) mem := by
  cases twin with
  | false => exact done_uses fs mem
  | true =>
    refine (newObj_uses mem).bind (n2 := [true] ++ ([true] ++ ([false, true] ++ [true]))) fun o => ?_
    generalize mem.drop [true].length = mem
    have hb : Uses (match alloc1 mem with | (false, _) => Made.nomem | (true, m) => Made.ok () m) [true] mem := by
      rcases hm : alloc1 mem with ⟨b, m⟩
      refine uses_one (a := ()) ?_ ?_ <;> intro h <;> rw [hm] at h <;> cases h
      · rfl
      · rw [hm]
    have h := hb.bind (f := fun _ mem => (addVal o "supported" (.bool true) mem).bind fun o mem =>
          (addInt o "fd_index" 0 mem).bind fun o mem => addVal fs "twin_socket" (.obj o) mem)
        (n2 := [true] ++ ([false, true] ++ [true])) fun _ =>
      (addVal_uses o "supported" (.bool true) _).bind fun o =>
        (addInt_uses o "fd_index" (by decide) _).bind fun o => addVal_uses fs "twin_socket" (.obj o) _
    have e : ∀ g : List Bool → Made (List (String × Json)),
        (match alloc1 mem with | (false, _) => Made.nomem | (true, m) => Made.ok () m).bind (fun _ m => g m) =
          match alloc1 mem with | (false, _) => .nomem | (true, m) => g m := by
      intro g
      rcases alloc1 mem with ⟨b, m⟩
      cases b <;> rfl
    rw [e] at h
    exact h

theorem format_uses {pr : Json → Option (List Byte)} (hpr : ∀ j, pr j ≠ none) (hasMig twin : Bool) {page : Nat}
    (hp : page ≤ 9223372036854775807) (mem : List Bool) :
    Uses (format pr (if hasMig = true then some page else none) (if twin = true then some 0 else none) mem)
      (outlay hasMig twin) mem := by
  have hb : Uses (build (if hasMig = true then some page else none) (if twin = true then some 0 else none) mem)
      ([true] ++ ([false, true] ++ ([false, true] ++ ((if hasMig = true then [true, false, true, true] else []) ++
        ((if twin = true then [true, true, true, false, true, true] else []) ++ ([true] ++ ([true] ++ []))))))) mem :=
    (newObj_uses mem).bind fun fs => (addInt_uses fs _ (by decide) _).bind fun fs => (addInt_uses fs _ (by decide) _).bind fun fs =>
      (addMig_uses fs hasMig hp _).bind fun fs => (addTwin_uses fs twin _).bind fun fs => (newObj_uses _).bind fun o =>
        (addVal_uses o _ (.obj fs) _).bind fun o => done_uses _ _
  have h := hb.bind (f := fun j mem => match pr j with
    | none => .crash
    | some l =>
      match alloc1 mem with
      | (true, mem) => .ok l mem
      | (false, _) => .nomem) (n2 := [true]) fun j => by
    cases hq : pr j with
    | none => exact absurd hq (hpr j)
    | some l =>
      dsimp only
      generalize List.drop _ mem = mem
      rcases hm : alloc1 mem with ⟨b, m⟩
      refine uses_one (a := l) ?_ ?_ <;> intro h <;> rw [hm] at h <;> cases h
      · rfl
      · rw [hm]
  have e : outlay hasMig twin = ([true] ++ ([false, true] ++ ([false, true] ++ ((if hasMig = true then [true, false, true, true] else []) ++
        ((if twin = true then [true, true, true, false, true, true] else []) ++ ([true] ++ ([true] ++ []))))))) ++ [true] := by
    cases hasMig <;> cases twin <;> rfl
  rw [e]
  exact h

theorem format_text {pr : Json → Option (List Byte)} {pg : Option Nat} {twin : Bool} {mem m : List Bool} {l : List Byte}
    (h : format pr pg (if twin = true then some 0 else none) mem = .ok l m) : ∃ j, Mumbles j pg twin ∧ pr j = some l := by
  obtain ⟨j, m', hb, hj⟩ := Made.bind_ok h
  refine ⟨j, C97_memory hb, ?_⟩
  cases hq : pr j with
  | none => rw [hq] at hj; cases hj
  | some l' =>
    rw [hq] at hj
    dsimp only at hj
    rcases hm : alloc1 m' with ⟨b, m2⟩
    rw [hm] at hj
    cases b <;> cases hj
    rfl

/-- C97: a version request the server would agree to, while memory is short.  If one of the allocations it needs fails nothing goes
out and the client is refused with `ENOMEM`; otherwise the same announcement goes out, if need be with null instead of numbers. -/
theorem C97_short (snd : Send) (json : List Byte → Option Json) (pr : Json → Option (List Byte)) (hpr : ∀ j, pr j ≠ none)
    (page : Nat) (hpg : page ≤ 9223372036854775807) (hasMig wantTwin : Bool) (pair : Except Nat Fd) (mem : List Bool)
    (h : Hdr) (body : List Byte) {c : Caps} (ha : Accepts json page hasMig h body c) {two : Bool}
    (htwo : two = true ↔ c.twin = true ∧ wantTwin = true ∧ 0 < c.maxFds) (hpair : two = true → ∃ fd, pair = .ok fd) :
    (Lacks (outlay hasMig two) mem → greet snd json pr page hasMig wantTwin pair mem (.ok (h, body)) =
      some { res := .error ENOMEM, twin := false, sent := [] }) ∧
    (¬ Lacks (outlay hasMig two) mem → ∃ j l, Mumbles j (if hasMig = true then some page else none) two ∧ pr j = some l ∧
      greet snd json pr page hasMig wantTwin pair mem (.ok (h, body)) =
        some (negotiate snd json page hasMig wantTwin pair (fun _ => l ++ [0#8]) (.ok (h, body)))) := by
  have hrv := (recvVersion_iff json page hasMig h body c (leAt body 2 2)).mpr ⟨ha, rfl⟩
  have hd : decide (c.twin = true ∧ wantTwin = true ∧ c.maxFds > 0) = two := by
    cases two with
    | true => exact decide_eq_true (htwo.mp rfl)
    | false => exact decide_eq_false fun q => by cases htwo.mpr q
  have hn : ¬ (two = true ∧ noPair pair = true) := by
    rintro ⟨h1, h2⟩
    obtain ⟨fd, rfl⟩ := hpair h1
    cases h2
  have hg : greet snd json pr page hasMig wantTwin pair mem (.ok (h, body)) =
      match format pr (if hasMig = true then some page else none) (if two = true then some 0 else none) mem with
      | .ok l _ => some (negotiate snd json page hasMig wantTwin pair (fun _ => l ++ [0#8]) (.ok (h, body)))
      | .nomem => some { res := .error ENOMEM, twin := false, sent := [] }
      | .crash => none := by
    unfold greet
    dsimp only
    rw [hrv]
    dsimp only
    rw [hd, if_neg hn]
  have hu := format_uses hpr hasMig two hpg mem
  rw [hg]
  refine ⟨fun q => ?_, fun q => ?_⟩
  · rw [hu.1 q]
  · obtain ⟨l, hl⟩ := hu.2 q
    obtain ⟨j, hj, hp⟩ := format_text hl
    refine ⟨j, l, hj, hp, ?_⟩
    rw [hl]

/-- C97: for a client that is refused it does not matter how much memory there is, nor for one that no pair of sockets could be made
for. -/
theorem C97_regardless (snd : Send) (json : List Byte → Option Json) (pr : Json → Option (List Byte)) (page : Nat)
    (hasMig wantTwin : Bool) (pair : Except Nat Fd) (mem : List Bool) (recv : Except Nat (Hdr × List Byte))
    (hno : ∀ h body, recv = .ok (h, body) → ∀ c, Accepts json page hasMig h body c →
      (c.twin = true ∧ wantTwin = true ∧ 0 < c.maxFds) ∧ ∃ e, pair = .error e) :
    greet snd json pr page hasMig wantTwin pair mem recv =
      some (negotiate snd json page hasMig wantTwin pair (fun _ => []) recv) := by
  unfold greet
  dsimp only
  cases recv with
  | error e => rfl
  | ok hb =>
    obtain ⟨h, body⟩ := hb
    dsimp only
    cases hrv : recvVersion json page hasMig h body with
    | error e => rfl
    | ok cm =>
      obtain ⟨c, minor⟩ := cm
      dsimp only
      obtain ⟨ht, e, rfl⟩ := hno h body rfl c ((recvVersion_iff json page hasMig h body c minor).mp hrv).1
      rw [decide_eq_true (p := c.twin = true ∧ wantTwin = true ∧ c.maxFds > 0) ht, if_pos ⟨rfl, rfl⟩]

/-! ## Cases -/

/-- C97, the exceptions.  A number there is no memory for is announced as null, which the server's own rules refuse; the text of a
document that cannot be printed is a null pointer. -/
theorem C97_null :
    (∃ j, build none none [true, false] = .ok j [] ∧ j.at ["capabilities", "max_msg_fds"] = some .other ∧ ∀ c, ¬ Asks j c) ∧
    format (fun _ => none) none none [] = .crash := by
  refine ⟨⟨_, rfl, rfl, fun c h => ?_⟩, rfl⟩
  rcases h.fds with ⟨e, _⟩ | ⟨i, e, _⟩ <;> cases e

/-- C97, the other exception: the 1 MiB announced do not hold for migration data.  The client may not deliver more at a time than
it said it can take. -/
theorem C97_migration (cb : List Byte → Except Nat Nat) (mig : Option Nat) (clientMax : Nat) (body : List Byte)
    (h : clientMax < leAt body 4 4) : Mig.dataWrite cb mig clientMax body = (.err EINVAL, []) :=
  Mig.C23_write_refused cb mig clientMax body fun ha => by have := ha.2.1; omega

/-- 8 KiB, in the right state and complete, for a client that can take 4 KiB. -/
example : leAt (enc 4 8200 ++ enc 4 8192 ++ List.replicate 8192 7#8) 4 4 = 8192 ∧
    Mig.WriteAllowed (some Mig.MSt.resuming.num) 1048576 (enc 4 8200 ++ enc 4 8192 ++ List.replicate 8192 7#8) ∧
    Mig.dataWrite (fun d => .ok d.length) (some Mig.MSt.resuming.num) 4096 (enc 4 8200 ++ enc 4 8192 ++ List.replicate 8192 7#8) =
      (.err EINVAL, []) := by
  have h4 : leAt (enc 4 8200 ++ enc 4 8192 ++ List.replicate 8192 7#8) 4 4 = 8192 :=
    leAt_field (enc 4 8200) _ 4 8192 4 rfl (by decide)
  have h0 : leAt (enc 4 8200 ++ enc 4 8192 ++ List.replicate 8192 7#8) 0 4 = 8200 := by
    rw [List.append_assoc]; exact leAt_field [] _ 4 8200 0 rfl (by decide)
  have hl : (enc 4 8200 ++ enc 4 8192 ++ List.replicate 8192 7#8).length = 8200 := by
    simp only [List.length_append, enc_length, List.length_replicate]
  refine ⟨h4, ⟨rfl, ?_, ?_, ?_⟩, C97_migration _ _ _ _ ?_⟩
  · rw [h4]; decide
  · rw [h4, h0]
  · rw [h4, hl]
  · rw [h4]; decide

/-- A printer and a parser for the two documents of a device that cannot be migrated. -/
def scribe (j : Json) : Option (List Byte) :=
  match j.at ["capabilities", "twin_socket"] with
  | none => some [1#8]
  | some _ => some [2#8]

def lector : List Byte → Option Json
  | [b] => if b = 1#8 then some (outline none false true true true true)
    else if b = 2#8 then some (outline none true true true true true) else none
  | _ => none

/-- A client without capabilities is greeted. -/
example (fd : Fd) : ∃ w, greet (fun n => .ok n) lector scribe 4096 false true (.ok fd) []
    (.ok ({ id := 7, cmd := 1, size := 20, flags := 0, err := 0 }, [0#8, 0#8, 1#8, 0#8])) =
      some { res := .ok { maxFds := 1, maxXfer := 1048576, pgsize := 0, twin := false }, twin := false
             sent := [{ bytes := w, fds := [] }] } := by
  have hsp : ∀ (two : Bool) (j : Json), build (if false = true then some 4096 else none) (if two = true then some 0 else none) [] =
      .ok j [] → Speaks scribe lector j := by
    intro two j hj
    cases two with
    | false => cases hj; exact ⟨[1#8], rfl, rfl, by decide, by decide⟩
    | true => cases hj; exact ⟨[2#8], rfl, rfl, by decide, by decide⟩
  obtain ⟨w, rb, two, h1, h2, _⟩ := C97_greeting (fun n => .ok n) (fun _ => rfl) lector scribe 4096 (by decide) false true
    hsp fd { id := 7, cmd := 1, size := 20, flags := 0, err := 0 } (by constructor <;> decide) [0#8, 0#8, 1#8, 0#8]
    (c := { maxFds := 1, maxXfer := 1048576, pgsize := 0, twin := false })
    ⟨rfl, by decide, by decide, fun _ => rfl, by decide, (fun hh => absurd hh (by decide)), by decide, by decide⟩
  cases two with
  | false => exact ⟨w, h1⟩
  | true => cases (h2.mp rfl).1

/-- The same client; there is no memory for the copy of the text, and nothing goes out.  If only that for a number is missing the
reply is sent. -/
example (fd : Fd) :
    greet (fun n => .ok n) lector scribe 4096 false true (.ok fd) [true, true, true, true, true, true, true, false]
      (.ok ({ id := 7, cmd := 1, size := 20, flags := 0, err := 0 }, [0#8, 0#8, 1#8, 0#8])) =
        some { res := .error ENOMEM, twin := false, sent := [] } ∧
    ∃ j l, Mumbles j none false ∧ scribe j = some l ∧
      greet (fun n => .ok n) lector scribe 4096 false true (.ok fd) [true, false]
        (.ok ({ id := 7, cmd := 1, size := 20, flags := 0, err := 0 }, [0#8, 0#8, 1#8, 0#8])) =
          some (negotiate (fun n => .ok n) lector 4096 false true (.ok fd) (fun _ => l ++ [0#8])
            (.ok ({ id := 7, cmd := 1, size := 20, flags := 0, err := 0 }, [0#8, 0#8, 1#8, 0#8]))) := by
  have hpr : ∀ j, scribe j ≠ none := by
    intro j hj
    unfold scribe at hj
    cases hq : j.at ["capabilities", "twin_socket"] with
    | none => rw [hq] at hj; cases hj
    | some v => rw [hq] at hj; cases hj
  have h := fun mem => C97_short (fun n => .ok n) lector scribe hpr 4096 (by decide) false true (.ok fd) mem
    { id := 7, cmd := 1, size := 20, flags := 0, err := 0 } [0#8, 0#8, 1#8, 0#8]
    (c := { maxFds := 1, maxXfer := 1048576, pgsize := 0, twin := false })
    ⟨rfl, by decide, by decide, fun _ => rfl, by decide, (fun hh => absurd hh (by decide)), by decide, by decide⟩
    (two := false) (by simp) (fun q => by cases q)
  refine ⟨(h _).1 ⟨7, rfl, rfl⟩, (h _).2 ?_⟩
  rintro ⟨i, h1, h2⟩
  match i, h1, h2 with
  | 0, _, h2 => cases h2
  | 1, h1, _ => cases h1
  | i + 2, _, h2 => cases h2

/-- A device that can be migrated, with a second socket. -/
example : ∃ j, build (some 4096) (some 0) [] = .ok j [] ∧ Announces j (some 4096) true ∧
    Asks j { maxFds := 8, maxXfer := 1048576, pgsize := 4096, twin := true } := by
  have hp : ∀ n, some 4096 = some n → n ≤ 9223372036854775807 := fun n hn => by cases hn; decide
  obtain ⟨j, h1, h2⟩ := C97_document (some 4096) hp true
  exact ⟨j, h1, h2, (C97_read hp h2 _).mpr rfl⟩

end Verif.Wire
