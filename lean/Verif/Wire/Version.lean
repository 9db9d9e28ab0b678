import Verif.Wire.Frame

/-!
# Version negotiation: C50 -/

namespace Verif.Wire
open Verif
open Verif.Dma (Fd)

/-! ## What the client's capabilities mean -/

/-- The member of that name; where a document names it more than once, the last one counts. -/
def Json.member : List (String × Json) → String → Option Json
  | [], _ => none
  | (n, v) :: fs, k =>
    match Json.member fs k with
    | some w => some w
    | none => if n = k then some v else none

/-- The value at a path of member names. -/
def Json.at (j : Json) : List String → Option Json
  | [] => some j
  | k :: ks =>
    match j with
    | .obj fs =>
      match Json.member fs k with
      | some v => v.at ks
      | none => none
    | _ => none

theorem get_member (fs : List (String × Json)) (k : String) : (Json.obj fs).get k = Json.member fs k := by
  unfold Json.get
  dsimp only
  induction fs with
  | nil => rfl
  | cons f fs ih =>
    obtain ⟨n, v⟩ := f
    rw [List.reverse_cons, List.find?_append, Json.member, ← ih]
    cases (fs.reverse.find? (fun f => f.1 == k)) with
    | some w => rfl
    | none =>
      by_cases h : n = k
      · simp [h]
      · simp [h]

theorem at_cons (j : Json) (k : String) (ks : List String) :
    j.at (k :: ks) = match j.get k with | some v => v.at ks | none => none := by
  cases j with
  | obj fs => rw [Json.at, get_member]
  | int i => rfl
  | bool b => rfl
  | other => rfl

theorem at_nil (j : Json) : j.at [] = some j := rfl

theorem at_one (j : Json) (k : String) : j.at [k] = j.get k := by
  rw [at_cons]
  cases j.get k <;> rfl

/-- A member that has to be an object if it is there. -/
def ObjIfThere (j : Option Json) : Prop := ∀ v, j = some v → ∃ fs, v = .obj fs

/-- An optional integer member: the default if it is absent, its value (after `f`) if it is an integer; nothing else
is allowed. -/
def IntOr {α : Type} (j : Option Json) (dflt : α) (f : Int → α) (v : α) : Prop :=
  (j = none ∧ v = dflt) ∨ ∃ i, j = some (.int i) ∧ v = f i

/-- An optional boolean member. -/
def BoolOr (j : Option Json) (dflt v : Bool) : Prop :=
  (j = none ∧ v = dflt) ∨ ∃ b, j = some (.bool b) ∧ v = b

/-- The capabilities `c` are what the document `top` asks for.  The library keeps 32 bits of the two sizes. -/
structure Asks (top : Json) (c : Caps) : Prop where
  caps : ObjIfThere (top.at ["capabilities"])
  mig : ObjIfThere (top.at ["capabilities", "migration"])
  tw : ObjIfThere (top.at ["capabilities", "twin_socket"])
  fds : IntOr (top.at ["capabilities", "max_msg_fds"]) 1 int32 c.maxFds
  xfer : IntOr (top.at ["capabilities", "max_data_xfer_size"]) 1048576 (fun v => toSize (int32 v)) c.maxXfer
  pgsize : IntOr (top.at ["capabilities", "migration", "pgsize"]) 0 toSize c.pgsize
  twin : BoolOr (top.at ["capabilities", "twin_socket", "supported"]) false c.twin

theorem int32_of_range (v : Int) (h1 : -2147483648 ≤ v) (h2 : v < 2147483648) : int32 v = v := by
  unfold int32; omega

theorem capInt_some {j : Json} {k : String} {c c' : Caps} {f : Int → Caps} :
    capInt j k c f = some c' ↔ (j.get k = none ∧ c' = c) ∨ ∃ i, j.get k = some (.int i) ∧ c' = f i := by
  unfold capInt
  cases hj : j.get k with
  | none => simp [eq_comm]
  | some v => cases v <;> simp [eq_comm]

theorem capMig_some {j : Json} {c c' : Caps} :
    capMig j c = some c' ↔
      (j.get "migration" = none ∧ c' = c) ∨
      ∃ fs, j.get "migration" = some (.obj fs) ∧
        (((Json.obj fs).get "pgsize" = none ∧ c' = c) ∨
          ∃ i, (Json.obj fs).get "pgsize" = some (.int i) ∧ c' = { c with pgsize := toSize i }) := by
  unfold capMig
  cases hj : j.get "migration" with
  | none => simp [eq_comm]
  | some v =>
    cases v with
    | obj fs => simp [capInt_some]
    | int i => simp
    | bool b => simp
    | other => simp

theorem capTwin_some {j : Json} {c c' : Caps} :
    capTwin j c = some c' ↔
      (j.get "twin_socket" = none ∧ c' = c) ∨
      ∃ fs, j.get "twin_socket" = some (.obj fs) ∧
        (((Json.obj fs).get "supported" = none ∧ c' = c) ∨
          ∃ b, (Json.obj fs).get "supported" = some (.bool b) ∧ c' = { c with twin := b }) := by
  unfold capTwin
  cases hj : j.get "twin_socket" with
  | none => simp [eq_comm]
  | some v =>
    cases v with
    | obj fs =>
      simp only [Option.some.injEq, Json.obj.injEq, reduceCtorEq, false_and, false_or, exists_eq_left']
      cases hs : (Json.obj fs).get "supported" with
      | none => simp [eq_comm]
      | some w => cases w <;> simp [eq_comm]
    | int i => simp
    | bool b => simp
    | other => simp

/-- The parser returns exactly what the document asks for. -/
theorem parseCaps_iff (top : Json) (c : Caps) : parseCaps (some top) = some c ↔ Asks top c := by
  unfold parseCaps
  dsimp only
  have at1 : ∀ k, top.at ["capabilities", k] = match top.get "capabilities" with | some v => v.get k | none => none := by
    intro k
    simp only [at_cons, at_nil]
    cases top.get "capabilities" with
    | none => rfl
    | some v => dsimp only; cases v.get k <;> rfl
  have at2 : ∀ k l, top.at ["capabilities", k, l] =
      match top.get "capabilities" with
      | some v => (match v.get k with | some w => w.get l | none => none)
      | none => none := by
    intro k l
    simp only [at_cons, at_nil]
    cases top.get "capabilities" with
    | none => rfl
    | some v =>
      dsimp only
      cases v.get k with
      | none => rfl
      | some w => dsimp only; cases w.get l <;> rfl
  cases hc : top.get "capabilities" with
  | none =>
    rw [hc] at at1 at2
    dsimp only at at1 at2 ⊢
    constructor
    · intro h
      cases h
      refine ⟨?_, ?_, ?_, ?_, ?_, ?_, ?_⟩
      · rw [at_one, hc]; intro v h; cases h
      · rw [at1]; intro v h; cases h
      · rw [at1]; intro v h; cases h
      · exact Or.inl ⟨at1 _, rfl⟩
      · exact Or.inl ⟨at1 _, rfl⟩
      · exact Or.inl ⟨at2 _ _, rfl⟩
      · exact Or.inl ⟨at2 _ _, rfl⟩
    · intro h
      have e1 : c.maxFds = 1 := by
        rcases h.fds with ⟨_, e⟩ | ⟨i, e, _⟩
        · exact e
        · rw [at1] at e; cases e
      have e2 : c.maxXfer = 1048576 := by
        rcases h.xfer with ⟨_, e⟩ | ⟨i, e, _⟩
        · exact e
        · rw [at1] at e; cases e
      have e3 : c.pgsize = 0 := by
        rcases h.pgsize with ⟨_, e⟩ | ⟨i, e, _⟩
        · exact e
        · rw [at2] at e; cases e
      have e4 : c.twin = false := by
        rcases h.twin with ⟨_, e⟩ | ⟨i, e, _⟩
        · exact e
        · rw [at2] at e; cases e
      cases c
      simp only at e1 e2 e3 e4
      subst e1; subst e2; subst e3; subst e4
      rfl
  | some v =>
    rw [hc] at at1 at2
    dsimp only at at1 at2 ⊢
    have notobj : (∀ fs, v ≠ .obj fs) → (none = some c ↔ Asks top c) := by
      intro hv
      constructor
      · intro h; cases h
      intro h
      obtain ⟨fs, hf⟩ := h.caps v ((at_one ..).trans hc)
      exact absurd hf (hv fs)
    cases v with
    | int i => exact notobj (by simp)
    | bool b => exact notobj (by simp)
    | other => exact notobj (by simp)
    | obj fs =>
      clear notobj
      dsimp only
      generalize Json.obj fs = o at at1 at2 ⊢
      have hmig : top.at ["capabilities", "migration"] = o.get "migration" := at1 _
      have htw : top.at ["capabilities", "twin_socket"] = o.get "twin_socket" := at1 _
      have hcaps : ObjIfThere (top.at ["capabilities"]) := by
        intro v hv; rw [at_one, hc] at hv; cases hv; exact ⟨fs, rfl⟩
      constructor
      · intro h
        cases h1 : capInt o "max_msg_fds" {} (fun v => { maxFds := int32 v }) with
        | none => rw [h1] at h; cases h
        | some c1 =>
          rw [h1] at h
          dsimp only at h
          cases h2 : capInt o "max_data_xfer_size" c1 (fun v => { c1 with maxXfer := toSize (int32 v) }) with
          | none => rw [h2] at h; cases h
          | some c2 =>
            rw [h2] at h
            dsimp only at h
            cases h3 : capMig o c2 with
            | none => rw [h3] at h; cases h
            | some c3 =>
              rw [h3] at h
              dsimp only at h
              have f1 : IntOr (o.get "max_msg_fds") 1 int32 c1.maxFds ∧ c1.maxXfer = 1048576 ∧ c1.pgsize = 0 ∧
                  c1.twin = false := by
                rcases capInt_some.mp h1 with ⟨e, rfl⟩ | ⟨i, e, rfl⟩
                · exact ⟨Or.inl ⟨e, rfl⟩, rfl, rfl, rfl⟩
                · exact ⟨Or.inr ⟨i, e, rfl⟩, rfl, rfl, rfl⟩
              have f2 : IntOr (o.get "max_data_xfer_size") 1048576 (fun v => toSize (int32 v)) c2.maxXfer ∧
                  c2.maxFds = c1.maxFds ∧ c2.pgsize = 0 ∧ c2.twin = false := by
                rcases capInt_some.mp h2 with ⟨e, rfl⟩ | ⟨i, e, rfl⟩
                · exact ⟨Or.inl ⟨e, f1.2.1⟩, rfl, f1.2.2.1, f1.2.2.2⟩
                · exact ⟨Or.inr ⟨i, e, rfl⟩, rfl, f1.2.2.1, f1.2.2.2⟩
              have f3 : ObjIfThere (o.get "migration") ∧
                  IntOr (top.at ["capabilities", "migration", "pgsize"]) 0 toSize c3.pgsize ∧
                  c3.maxFds = c1.maxFds ∧ c3.maxXfer = c2.maxXfer ∧ c3.twin = false := by
                rw [at2]
                rcases capMig_some.mp h3 with ⟨e, rfl⟩ | ⟨gs, e, ⟨e2, rfl⟩ | ⟨i, e2, rfl⟩⟩
                · rw [e]
                  exact ⟨fun v hv => by (cases hv), Or.inl ⟨rfl, f2.2.2.1⟩, f2.2.1, rfl, f2.2.2.2⟩
                · rw [e]
                  exact ⟨fun v hv => by cases hv; exact ⟨gs, rfl⟩, Or.inl ⟨e2, f2.2.2.1⟩, f2.2.1, rfl, f2.2.2.2⟩
                · rw [e]
                  exact ⟨fun v hv => by cases hv; exact ⟨gs, rfl⟩, Or.inr ⟨i, e2, rfl⟩, f2.2.1, rfl, f2.2.2.2⟩
              have f4 : ObjIfThere (o.get "twin_socket") ∧
                  BoolOr (top.at ["capabilities", "twin_socket", "supported"]) false c.twin ∧
                  c.maxFds = c1.maxFds ∧ c.maxXfer = c2.maxXfer ∧ c.pgsize = c3.pgsize := by
                rw [at2]
                rcases capTwin_some.mp h with ⟨e, rfl⟩ | ⟨gs, e, ⟨e2, rfl⟩ | ⟨b, e2, rfl⟩⟩
                · rw [e]
                  exact ⟨fun v hv => by (cases hv), Or.inl ⟨rfl, f3.2.2.2.2⟩, f3.2.2.1, f3.2.2.2.1, rfl⟩
                · rw [e]
                  exact ⟨fun v hv => by cases hv; exact ⟨gs, rfl⟩, Or.inl ⟨e2, f3.2.2.2.2⟩, f3.2.2.1, f3.2.2.2.1, rfl⟩
                · rw [e]
                  exact ⟨fun v hv => by cases hv; exact ⟨gs, rfl⟩, Or.inr ⟨b, e2, rfl⟩, f3.2.2.1, f3.2.2.2.1, rfl⟩
              refine ⟨hcaps, by rw [hmig]; exact f3.1, by rw [htw]; exact f4.1, ?_, ?_, ?_, f4.2.1⟩
              · rw [at1, f4.2.2.1]; exact f1.1
              · rw [at1, f4.2.2.2.1]; exact f2.1
              · rw [f4.2.2.2.2]; exact f3.2.1
      · intro h
        have hf := h.fds
        have hx := h.xfer
        have hp := h.pgsize
        have ht := h.twin
        have hm := h.mig
        have hw := h.tw
        rw [at1] at hf hx hm hw
        rw [at2] at hp ht
        obtain ⟨c1, h1, g1⟩ : ∃ c1, capInt o "max_msg_fds" {} (fun v => { maxFds := int32 v }) = some c1 ∧
            c1.maxFds = c.maxFds ∧ c1.maxXfer = 1048576 ∧ c1.pgsize = 0 ∧ c1.twin = false := by
          rcases hf with ⟨e, e2⟩ | ⟨i, e, e2⟩
          · exact ⟨_, capInt_some.mpr (Or.inl ⟨e, rfl⟩), e2.symm, rfl, rfl, rfl⟩
          · exact ⟨_, capInt_some.mpr (Or.inr ⟨i, e, rfl⟩), e2.symm, rfl, rfl, rfl⟩
        rw [h1]
        dsimp only
        obtain ⟨c2, h2, g2⟩ : ∃ c2, capInt o "max_data_xfer_size" c1 (fun v => { c1 with maxXfer := toSize (int32 v) }) = some c2 ∧
            c2.maxFds = c.maxFds ∧ c2.maxXfer = c.maxXfer ∧ c2.pgsize = 0 ∧ c2.twin = false := by
          rcases hx with ⟨e, e2⟩ | ⟨i, e, e2⟩
          · exact ⟨_, capInt_some.mpr (Or.inl ⟨e, rfl⟩), g1.1, by rw [g1.2.1, e2], g1.2.2.1, g1.2.2.2⟩
          · exact ⟨_, capInt_some.mpr (Or.inr ⟨i, e, rfl⟩), g1.1, e2.symm, g1.2.2.1, g1.2.2.2⟩
        rw [h2]
        dsimp only
        obtain ⟨c3, h3, g3⟩ : ∃ c3, capMig o c2 = some c3 ∧
            c3.maxFds = c.maxFds ∧ c3.maxXfer = c.maxXfer ∧ c3.pgsize = c.pgsize ∧ c3.twin = false := by
          cases hmg : o.get "migration" with
          | none =>
            refine ⟨_, capMig_some.mpr (Or.inl ⟨hmg, rfl⟩), g2.1, g2.2.1, ?_, g2.2.2.2⟩
            rw [hmg] at hp
            rcases hp with ⟨_, e⟩ | ⟨i, e, _⟩
            · rw [e, g2.2.2.1]
            · cases e
          | some w =>
            rw [hmg] at hp hm
            obtain ⟨gs, rfl⟩ := hm _ rfl
            dsimp only at hp
            rcases hp with ⟨e, e2⟩ | ⟨i, e, e2⟩
            · exact ⟨_, capMig_some.mpr (Or.inr ⟨gs, hmg, Or.inl ⟨e, rfl⟩⟩), g2.1, g2.2.1, by rw [e2, g2.2.2.1], g2.2.2.2⟩
            · exact ⟨_, capMig_some.mpr (Or.inr ⟨gs, hmg, Or.inr ⟨i, e, rfl⟩⟩), g2.1, g2.2.1, e2.symm, g2.2.2.2⟩
        rw [h3]
        dsimp only
        rw [capTwin_some]
        have eqv : ∀ d : Caps, d.maxFds = c.maxFds → d.maxXfer = c.maxXfer → d.pgsize = c.pgsize → d.twin = c.twin → c = d := by
          intro d q1 q2 q3 q4
          cases d; cases c
          simp only at q1 q2 q3 q4
          subst q1; subst q2; subst q3; subst q4
          rfl
        cases htwv : o.get "twin_socket" with
        | none =>
          left
          rw [htwv] at ht
          rcases ht with ⟨_, e⟩ | ⟨i, e, _⟩
          · exact ⟨rfl, eqv _ g3.1 g3.2.1 g3.2.2.1 (by rw [g3.2.2.2, e])⟩
          · cases e
        | some w =>
          right
          rw [htwv] at ht hw
          obtain ⟨gs, rfl⟩ := hw _ rfl
          dsimp only at ht
          rcases ht with ⟨e, e2⟩ | ⟨b, e, e2⟩
          · exact ⟨gs, rfl, Or.inl ⟨e, eqv _ g3.1 g3.2.1 g3.2.2.1 (by rw [g3.2.2.2, e2])⟩⟩
          · exact ⟨gs, rfl, Or.inr ⟨b, e, eqv _ g3.1 g3.2.1 g3.2.2.1 e2.symm⟩⟩

/-! ## The request -/

/-- The text of the client's capabilities: what follows the two version numbers, up to the first NUL. -/
def text (body : List Byte) : List Byte := (body.drop 4).takeWhile (· != 0#8)

/-- A version request the server agrees to, and what it then records. -/
structure Accepts (json : List Byte → Option Json) (page : Nat) (hasMig : Bool) (h : Hdr) (body : List Byte)
    (c : Caps) : Prop where
  cmd : h.cmd = 1
  len : 4 ≤ body.length
  major : leAt body 0 2 = 0
  dflt : body.length = 4 → c = { maxFds := 1, maxXfer := 1048576, pgsize := 0, twin := false }
  nul : 4 < body.length → body.getLast? = some 0#8
  asks : 4 < body.length → ∃ top, json (text body) = some top ∧ Asks top c
  page : 4 < body.length → hasMig = true → c.pgsize = 0 ∨ c.pgsize = page
  fds : 0 ≤ c.maxFds ∧ c.maxFds ≤ 1024

/-- **C50**, the decision: the server agrees to exactly the requests that are version requests of its major version
without capabilities, or with a well-formed text whose values are of the right kind and in range. -/
theorem recvVersion_iff (json : List Byte → Option Json) (page : Nat) (hasMig : Bool) (h : Hdr) (body : List Byte)
    (c : Caps) (minor : Nat) :
    recvVersion json page hasMig h body = .ok (c, minor) ↔
      Accepts json page hasMig h body c ∧ minor = leAt body 2 2 := by
  unfold recvVersion
  by_cases h1 : h.cmd ≠ CMD_VERSION
  · rw [if_pos h1]
    exact ⟨fun x => by (exfalso; simp at x), fun x => absurd x.1.cmd h1⟩
  rw [if_neg h1]
  by_cases h2 : body.length < 4
  · rw [if_pos h2]
    exact ⟨fun x => by (exfalso; simp at x), fun x => absurd x.1.len (by omega)⟩
  rw [if_neg h2]
  by_cases h3 : leAt body 0 2 ≠ MAJOR
  · rw [if_pos h3]
    exact ⟨fun x => by (exfalso; simp at x), fun x => absurd x.1.major h3⟩
  rw [if_neg h3]
  dsimp only
  have hcmd : h.cmd = 1 := Decidable.not_not.mp h1
  have hmaj : leAt body 0 2 = 0 := Decidable.not_not.mp h3
  by_cases h4 : body.length = 4
  · rw [if_pos h4]
    constructor
    · intro x
      simp only [Except.ok.injEq, Prod.mk.injEq] at x
      obtain ⟨rfl, rfl⟩ := x
      exact ⟨⟨hcmd, by omega, hmaj, fun _ => rfl, by omega, by omega, by omega, by decide, by decide⟩, rfl⟩
    · rintro ⟨x, rfl⟩
      rw [x.dflt h4]
      rfl
  rw [if_neg h4]
  by_cases h5 : body.getLast? ≠ some 0#8
  · rw [if_pos h5]
    exact ⟨fun x => by (exfalso; simp at x), fun x => absurd (x.1.nul (by omega)) h5⟩
  rw [if_neg h5]
  change (match parseCaps (json (text body)) with | none => _ | some c => _) = _ ↔ _
  cases hj : json (text body) with
  | none =>
    dsimp only [parseCaps]
    refine ⟨fun x => by (exfalso; simp at x), fun x => ?_⟩
    obtain ⟨top, e, _⟩ := x.1.asks (by omega)
    rw [hj] at e; cases e
  | some top =>
    cases hp : parseCaps (some top) with
    | none =>
      dsimp only
      refine ⟨fun x => by (exfalso; simp at x), fun x => ?_⟩
      obtain ⟨top', e, ha⟩ := x.1.asks (by omega)
      rw [hj] at e; cases e
      rw [(parseCaps_iff top c).mpr ha] at hp; cases hp
    | some d =>
      dsimp only
      by_cases h6 : hasMig = true ∧ d.pgsize ≠ 0 ∧ d.pgsize ≠ page
      · rw [if_pos h6]
        refine ⟨fun x => by (exfalso; simp at x), fun x => ?_⟩
        obtain ⟨top', e, ha⟩ := x.1.asks (by omega)
        rw [hj] at e; cases e
        rw [(parseCaps_iff top c).mpr ha] at hp; cases hp
        rcases x.1.page (by omega) h6.1 with e | e
        · exact absurd e h6.2.1
        · exact absurd e h6.2.2
      rw [if_neg h6]
      by_cases h7 : d.maxFds < 0 ∨ d.maxFds > 1024
      · rw [if_pos h7]
        refine ⟨fun x => by (exfalso; simp at x), fun x => ?_⟩
        obtain ⟨top', e, ha⟩ := x.1.asks (by omega)
        rw [hj] at e; cases e
        rw [(parseCaps_iff top c).mpr ha] at hp; cases hp
        have := x.1.fds
        omega
      rw [if_neg h7]
      constructor
      · intro x
        simp only [Except.ok.injEq, Prod.mk.injEq] at x
        obtain ⟨rfl, rfl⟩ := x
        refine ⟨⟨hcmd, by omega, hmaj, fun hx => absurd hx h4, fun _ => by simpa using h5,
          fun _ => ⟨top, hj, (parseCaps_iff top _).mp hp⟩, fun _ hmg => ?_, by omega⟩, rfl⟩
        by_contra hcon
        rw [not_or] at hcon
        exact h6 ⟨hmg, hcon.1, hcon.2⟩
      · rintro ⟨x, rfl⟩
        obtain ⟨top', e, ha⟩ := x.asks (by omega)
        rw [hj] at e; cases e
        rw [(parseCaps_iff top c).mpr ha] at hp; cases hp
        rfl

theorem recvVersion_err {json : List Byte → Option Json} {page : Nat} {hasMig : Bool} {h : Hdr} {body : List Byte}
    {e : Nat} (hr : recvVersion json page hasMig h body = .error e) : e = EINVAL := by
  unfold recvVersion at hr
  by_cases h1 : h.cmd ≠ CMD_VERSION
  · rw [if_pos h1] at hr; cases hr; rfl
  rw [if_neg h1] at hr
  by_cases h2 : body.length < 4
  · rw [if_pos h2] at hr; cases hr; rfl
  rw [if_neg h2] at hr
  by_cases h3 : leAt body 0 2 ≠ MAJOR
  · rw [if_pos h3] at hr; cases hr; rfl
  rw [if_neg h3] at hr
  dsimp only at hr
  by_cases h4 : body.length = 4
  · rw [if_pos h4] at hr; cases hr
  rw [if_neg h4] at hr
  by_cases h5 : body.getLast? ≠ some 0#8
  · rw [if_pos h5] at hr; cases hr; rfl
  rw [if_neg h5] at hr
  cases hp : parseCaps (json ((body.drop 4).takeWhile (· != 0#8))) with
  | none => rw [hp] at hr; cases hr; rfl
  | some d =>
    rw [hp] at hr
    dsimp only at hr
    by_cases h6 : hasMig = true ∧ d.pgsize ≠ 0 ∧ d.pgsize ≠ page
    · rw [if_pos h6] at hr; cases hr; rfl
    rw [if_neg h6] at hr
    by_cases h7 : d.maxFds < 0 ∨ d.maxFds > 1024
    · rw [if_pos h7] at hr; cases hr; rfl
    · rw [if_neg h7] at hr; cases hr

/-- **C50**.  On a healthy socket, for every version request: if it is acceptable the context records what it asked
for (the defaults where it asked for nothing) and one reply without error goes out with the server's major version
and the smaller of the two minor versions, and with the client's end of a command socket exactly if one is wanted; otherwise the negotiation fails with `EINVAL` and one reply with that
error and no payload goes out. -/
theorem C50_negotiate (snd : Send) (hs : Healthy snd) (json : List Byte → Option Json) (page : Nat)
    (hasMig wantTwin : Bool) (fd : Fd) (caps : Option Nat → List Byte) (h : Hdr) (hf : h.Fits) (body : List Byte)
    (hcaps : ∀ i, (caps i).length + 20 < U32) :
    (∃ c idx fds w, Accepts json page hasMig h body c ∧
        negotiate snd json page hasMig wantTwin (.ok fd) caps (.ok (h, body)) =
          { res := .ok c, twin := decide (c.twin = true ∧ wantTwin = true ∧ c.maxFds > 0),
            sent := [{ bytes := w, fds }] } ∧
        IsReply h 0 (enc 2 0 ++ enc 2 (min (leAt body 2 2) 2) ++ caps idx) w ∧
        fds.length ≤ c.maxFds.toNat ∧
        (fds, idx) = if c.twin = true ∧ wantTwin = true ∧ c.maxFds > 0 then ([fd], some 0) else ([], none)) ∨
    ((∀ c, ¬ Accepts json page hasMig h body c) ∧ ∃ w,
        negotiate snd json page hasMig wantTwin (.ok fd) caps (.ok (h, body)) =
          { res := .error EINVAL, twin := false, sent := [{ bytes := w, fds := [] }] } ∧
        IsReply h EINVAL [] w) := by
  cases hr : recvVersion json page hasMig h body with
  | error e =>
    right
    have he := recvVersion_err hr
    subst he
    refine ⟨fun c hc => ?_, ?_⟩
    · have := (recvVersion_iff json page hasMig h body c (leAt body 2 2)).mpr ⟨hc, rfl⟩
      rw [hr] at this; cases this
    · obtain ⟨w, hw, hi⟩ := C49_reply snd hs h hf EINVAL (by decide) [] (by decide) []
      refine ⟨w, ?_, hi⟩
      unfold negotiate
      dsimp only
      rw [hr]
      dsimp only
      rw [List.map_nil] at hw
      rw [hw]
  | ok cm =>
    obtain ⟨c, minor⟩ := cm
    left
    obtain ⟨hacc, hmin⟩ := (recvVersion_iff json page hasMig h body c minor).mp hr
    have hcmd : ({ h with cmd := CMD_VERSION } : Hdr) = h := by
      have := hacc.cmd
      cases h; simp only at this; subst this; rfl
    have hlen : ∀ i, (enc 2 MAJOR ++ enc 2 (min minor MINOR) ++ caps i).length + 16 < U32 := by
      intro i
      have := hcaps i
      simp only [List.length_append, enc_length]; omega
    unfold negotiate
    dsimp only
    rw [hr]
    dsimp only
    rw [hcmd]
    by_cases ht : c.twin = true ∧ wantTwin = true ∧ c.maxFds > 0
    · rw [if_pos ht]
      obtain ⟨w, hw, hi⟩ := C49_reply snd hs h hf 0 (by decide) (enc 2 MAJOR ++ enc 2 (min minor MINOR) ++ caps (some 0)) (hlen _) [fd]
      rw [List.map_cons, List.map_nil] at hw
      refine ⟨c, some 0, [fd], w, hacc, ?_, ?_, ?_, (if_pos ht).symm⟩
      · simp only [Option.toList, List.map_cons, List.map_nil]
        rw [hw]
        simp [ht]
      · rw [← hmin]; exact hi
      · have := ht.2.2; simp; omega
    · rw [if_neg ht]
      obtain ⟨w, hw, hi⟩ := C49_reply snd hs h hf 0 (by decide) (enc 2 MAJOR ++ enc 2 (min minor MINOR) ++ caps none) (hlen _) []
      rw [List.map_nil] at hw
      refine ⟨c, none, [], w, hacc, ?_, ?_, by simp, (if_neg ht).symm⟩
      · simp only [Option.toList, List.map_nil]
        rw [hw]
        simp only [decide_eq_false ht]
      · rw [← hmin]; exact hi

end Verif.Wire
