import Verif.Server.Soil

/-!
# C101: the memory a migration moves

While the guest runs, the client copies guest memory to the destination; whatever the device writes meanwhile has to be copied
again, and the client knows of it only by the reports of the dirty page log (`docs/vfio-user.rst`, "Dirty page logging").  This
file adds the two memories to the account of C80: the device stores bytes and marks them (`lib/dma.h:309-377`), the client fetches
bytes and asks for reports, in any interleaving.  A byte that differs at the destination is never forgotten: it is one the device
has not marked yet, or one the client has been told to fetch, or one the next report names. -/

namespace Verif.Server
open Verif
open Verif.Dma (Fd Tbl Represents)

/-- What happens during a migration: a call of the library, the device stores a byte of guest memory (through a mapping; the
library does not see it), the client copies a byte to the destination. -/
inductive Act where
  | call (op : Op)
  | store (a : Nat) (v : Byte)
  | fetch (a : Nat)

/-- The calls of the library among them. -/
def callsOf : List Act → List Op
  | [] => []
  | .call op :: as => op :: callsOf as
  | _ :: as => callsOf as

/-- The guest memory at the source and at the destination; the addresses the device stored to and has not marked since; the
addresses the client has been told to fetch and has not fetched since. -/
structure Copies where
  src : Nat → Byte
  dst : Nat → Byte
  unmarked : Nat → Prop
  due : Nat → Prop

/-- The call marks the address: `vfu_sgl_mark_dirty` or `vfu_sgl_put` with a writable entry that covers it. -/
def Op.Marks (op : Op) (a : Nat) : Prop :=
  ∃ sgl sg, op = .mark sgl ∧ sg ∈ sgl ∧ sg.writeable = true ∧ sg.dmaAddr + sg.offset ≤ a ∧ a < sg.dmaAddr + sg.offset + sg.length

/-- The call is answered with a report of the range of `l` bytes at `b`, which is `w`. -/
def Reports (cfg : Cfg) (st : St) (op : Op) (b l : Nat) (w : Wire.Sent) : Prop :=
  ∃ m, op.subject st = some m ∧ m.asksLog ∧ leAt m.body 8 8 = b ∧ leAt m.body 16 8 = l ∧
    sents (call cfg st op).evs = [w] ∧ (Wire.Hdr.ofBytes w.bytes).flags.testBit 5 = false ∧ 16 < w.bytes.length

/-- The report names the page of the address; the bitmap follows the headers, of 16, 8 and 24 bytes. -/
def Names (w : Wire.Sent) (b l pg a : Nat) : Prop := b ≤ a ∧ a < b + l ∧ Dma.bit (w.bytes.drop 48) ((a - b) / pg) = true

def Copies.stored (x : Copies) (a : Nat) (v : Byte) : Copies :=
  { x with src := fun a' => if a' = a then v else x.src a', unmarked := fun a' => a' = a ∨ x.unmarked a' }

def Copies.fetched (x : Copies) (a : Nat) : Copies :=
  { x with dst := fun a' => if a' = a then x.src a else x.dst a', due := fun a' => x.due a' ∧ a' ≠ a }

def Copies.called (x : Copies) (cfg : Cfg) (st : St) (op : Op) (b l pg : Nat) : Copies :=
  { x with unmarked := fun a => x.unmarked a ∧ ¬ op.Marks a
           due := fun a => x.due a ∨ ∃ w, Reports cfg st op b l w ∧ Names w b l pg a }

/-- The memories after `as`. -/
def migrate (cfg : Cfg) (b l pg : Nat) : Copies → St → List Act → Copies
  | x, _, [] => x
  | x, st, .call op :: as => migrate cfg b l pg (x.called cfg st op b l pg) (call cfg st op).st as
  | x, st, .store a v :: as => migrate cfg b l pg (x.stored a v) st as
  | x, st, .fetch a :: as => migrate cfg b l pg (x.fetched a) st as

/-- Client and device keep to the rules of C80; from `ops` on, the range stays mapped and logged with pages of `pg` bytes. -/
structure Watched (cfg : Cfg) (mig : Bool) (x : Nat × Nat) (pci : Pci.Pci) (ops more : List Op) (b l pg : Nat) : Prop where
  talk : LogTalk cfg mig x pci (ops ++ more)
  paged : pg ≠ 0
  mapped : ∀ u v, more = u ++ v → (account cfg Tbl.empty (init cfg mig (some x) pci) (ops ++ u) b l).isSome = true
  logged : ∀ u v, more = u ++ v → (book cfg Tbl.empty Book.none (init cfg mig (some x) pci) (ops ++ u)).pg = pg

section
variable {cfg : Cfg} {mig : Bool} {x : Nat × Nat} {pci : Pci.Pci} {ops : List Op} {b l pg : Nat}

theorem Watched.next {op : Op} {more : List Op} (h : Watched cfg mig x pci ops (op :: more) b l pg) :
    Watched cfg mig x pci (ops ++ [op]) more b l pg where
  talk := by have := h.talk; rwa [List.append_cons] at this
  paged := h.paged
  mapped u v e := by
    have := h.mapped (op :: u) v (by rw [e]; rfl)
    rwa [List.append_cons] at this
  logged u v e := by
    have := h.logged (op :: u) v (by rw [e]; rfl)
    rwa [List.append_cons] at this

/-- While the range stays mapped and logged, only a report of it ends its record. -/
theorem ends_reports {t : Tbl} {d : Book} {st : St} {op : Op} (he : Ends cfg st op b l)
    (ht : (noteCall t (op.subject st) (call cfg st op).evs b l).isSome = true)
    (hp : (jotCall t d st op (call cfg st op).evs).pg ≠ 0) :
    .detach ∉ (call cfg st op).evs ∧ ∃ w, Reports cfg st op b l w := by
  have hdt : .detach ∉ (call cfg st op).evs := by
    intro hd
    unfold noteCall at ht
    rw [if_pos hd] at ht
    cases ht
  refine ⟨hdt, ?_⟩
  rcases he with hd | ⟨m, w, hm, hw, hf, hr⟩
  · exact absurd hd hdt
  have hf' : ¬ (Wire.Hdr.ofBytes w.bytes).flags.testBit 5 = true := by rw [hf]; simp
  have hn : noteCall t (op.subject st) (call cfg st op).evs = note t m w := by
    unfold noteCall
    rw [if_neg hdt, hm, hw]
  rw [hn] at ht
  rcases hr with hr | ⟨h16, hr⟩
  · exfalso
    apply hp
    unfold jotCall
    rw [if_neg hdt]
    have h6 : ¬ m.startsLog := fun h => by have := h.2; have := hr.2; omega
    cases op with
    | mark sgl => cases hm
    | _ =>
      dsimp only
      rw [hm, hw]
      dsimp only
      unfold jot
      rw [if_neg hf', if_neg h6, if_pos hr]
  have h3 : m.hdr.cmd ≠ 3 := by
    intro h3
    unfold note at ht
    rw [if_neg hf', if_neg (by omega), if_pos ⟨h3, h16⟩] at ht
    by_cases h2 : leAt m.body 4 4 = 2
    · rw [if_pos h2] at ht; cases ht
    · rw [if_neg h2] at ht
      rcases hr with hr | ⟨_, hb, hl⟩
      · exact h2 hr.2
      · rw [hb, hl] at ht
        unfold Tbl.delete at ht
        rw [if_pos ⟨rfl, rfl⟩] at ht
        cases ht
  rcases hr with hr | ⟨hr, hb, hl⟩
  · exact absurd hr.1 h3
  · exact ⟨w, m, hm, hr.resolve_right h3, hb, hl, hw, hf, h16⟩

/-- C101: a byte of the range that differs at the destination was stored and not marked since, or reported and not fetched
since, or is in the account of written pages, so that the next report names it. -/
theorem C101_behind {as : List Act} {tw : Copies} (h : Watched cfg mig x pci ops (callsOf as) b l pg)
    (h0 : ∀ a, b ≤ a → a < b + l → tw.src a ≠ tw.dst a → tw.unmarked a ∨ tw.due a ∨
      (book cfg Tbl.empty Book.none (init cfg mig (some x) pci) ops).dirty b l ((a - b) / pg)) (a : Nat) (ha : b ≤ a) (hal : a < b + l) :
    let tw' := migrate cfg b l pg tw (run cfg (init cfg mig (some x) pci) ops).1 as
    tw'.src a ≠ tw'.dst a → tw'.unmarked a ∨ tw'.due a ∨
      (book cfg Tbl.empty Book.none (init cfg mig (some x) pci) (ops ++ callsOf as)).dirty b l ((a - b) / pg) := by
  induction as generalizing ops tw with
  | nil =>
    intro tw' hne
    have := h0 a ha hal hne
    rwa [show ops ++ callsOf [] = ops from List.append_nil _]
  | cons act as ih =>
    cases act with
    | store a' v =>
      refine ih h (tw := tw.stored a' v) fun c hc hcl hne => ?_
      by_cases he : c = a'
      · exact .inl (.inl he)
      · have hne' : tw.src c ≠ tw.dst c := by
          intro e
          apply hne
          show (if c = a' then v else tw.src c) = tw.dst c
          rw [if_neg he, e]
        rcases h0 c hc hcl hne' with g | g
        · exact .inl (.inr g)
        · exact .inr g
    | fetch a' =>
      refine ih h (tw := tw.fetched a') fun c hc hcl hne => ?_
      by_cases he : c = a'
      · exfalso
        apply hne
        show tw.src c = if c = a' then tw.src a' else tw.dst c
        rw [if_pos he, he]
      · have hne' : tw.src c ≠ tw.dst c := by
          intro e
          apply hne
          show tw.src c = if c = a' then tw.src a' else tw.dst c
          rw [if_neg he, e]
        rcases h0 c hc hcl hne' with g | g | g
        · exact .inl g
        · exact .inr (.inl ⟨g, he⟩)
        · exact .inr (.inr g)
    | call op =>
      have h : Watched cfg mig x pci ops (op :: callsOf as) b l pg := h
      have htk : LogTalk cfg mig x pci (ops ++ [op]) := by
        have := h.talk
        rw [List.append_cons] at this
        exact this.prefix
      obtain ⟨hc1, hc2⟩ := (completes_append ops [op]).mp htk.talk.ends
      have hst : (run cfg (init cfg mig (some x) pci) (ops ++ [op])).1 =
          (call cfg (run cfg (init cfg mig (some x) pci) ops).1 op).st := by
        rw [run_append ops [op] hc1]
        generalize (run cfg (init cfg mig (some x) pci) ops).1 = st at hc2 ⊢
        show (run cfg st [op]).1 = _
        unfold run
        dsimp only
        rw [hc2.1]
        rfl
      have hbk := book_append ops [op] (t := Tbl.empty) (d := Book.none) hc1
      have hac := account_append ops [op] (t := Tbl.empty) hc1
      have e1 := h.mapped [] (op :: callsOf as) rfl
      have e2 := h.logged [] (op :: callsOf as) rfl
      have e3 := h.mapped [op] (callsOf as) rfl
      have e4 := h.logged [op] (callsOf as) rfl
      rw [List.append_nil] at e1 e2
      rw [hac] at e3
      rw [hbk] at e4
      have key := ih h.next (tw := tw.called cfg (run cfg (init cfg mig (some x) pci) ops).1 op b l pg)
        (fun c hc hcl hne => ?_)
      · rw [hst, ← List.append_cons] at key
        exact key
      · rw [hbk]
        change _ ∨ _ ∨ (jotCall _ _ _ op _).dirty b l ((c - b) / pg)
        rw [jotCall_dirty]
        have hrep : (book cfg Tbl.empty Book.none (init cfg mig (some x) pci) ops).dirty b l ((c - b) / pg) →
            Ends cfg (run cfg (init cfg mig (some x) pci) ops).1 op b l →
            ∃ w, Reports cfg (run cfg (init cfg mig (some x) pci) ops).1 op b l w ∧ Names w b l pg c := by
          intro hdirty hend
          obtain ⟨hdt, w, m, hm, hask, hb, hl, hw, hf, h16⟩ := ends_reports hend e3 (by
            intro h0
            exact h.paged (e4.symm.trans h0))
          have hrp := C80_report htk hm hask hdt hw h16 ((c - b) / pg)
          rw [hb, hl] at hrp
          exact ⟨w, ⟨m, hm, hask, hb, hl, hw, hf, h16⟩, hc, hcl, hrp.mpr hdirty⟩
        by_cases hmk : op.Marks c
        · obtain ⟨sgl, sg, rfl, hsg, hwr, g1, g2⟩ := hmk
          refine .inr (.inr ⟨.inr ⟨sgl, rfl, by rw [e2]; exact h.paged, e1, sg, hsg, ?_⟩, ?_⟩)
          · rw [e2]
            exact ⟨hwr, c, g1, g2, hc, hcl, rfl⟩
          · intro hend
            obtain ⟨_, w, m, hm, _⟩ := ends_reports hend e3 (by
              intro h0
              exact h.paged (e4.symm.trans h0))
            cases hm
        · rcases h0 c hc hcl hne with g | g | g
          · exact .inl ⟨g, hmk⟩
          · exact .inr (.inl (.inl g))
          · by_cases hend : Ends cfg (run cfg (init cfg mig (some x) pci) ops).1 op b l
            · exact .inr (.inl (.inr (hrep g hend)))
            · exact .inr (.inr ⟨.inl g, hend⟩)

/-! ## The last report -/

theorem callsOf_append (us vs : List Act) : callsOf (us ++ vs) = callsOf us ++ callsOf vs := by
  induction us with
  | nil => rfl
  | cons act us ih => cases act <;> simp [callsOf, ih]

theorem migrate_append (us vs : List Act) {tw : Copies} {st : St} (hc : Completes cfg st (callsOf us)) :
    migrate cfg b l pg tw st (us ++ vs) =
      migrate cfg b l pg (migrate cfg b l pg tw st us) (run cfg st (callsOf us)).1 vs := by
  induction us generalizing tw st with
  | nil => rfl
  | cons act us ih =>
    cases act with
    | store a v => exact ih hc
    | fetch a => exact ih hc
    | call op =>
      have hrun : (run cfg st (callsOf (.call op :: us))).1 = (run cfg (call cfg st op).st (callsOf us)).1 := by
        show (run cfg st (op :: callsOf us)).1 = _
        conv_lhs => unfold run
        dsimp only
        rw [hc.1]
        rfl
      rw [hrun]
      exact ih hc.2

/-- The device neither stores nor marks. -/
def Act.Still (act : Act) : Prop := (∀ a v, act ≠ .store a v) ∧ ∀ sgl, act ≠ .call (.mark sgl)

theorem still_src {vs : List Act} (h : ∀ act ∈ vs, act.Still) (tw : Copies) (st : St) :
    (migrate cfg b l pg tw st vs).src = tw.src ∧ ∀ a, (migrate cfg b l pg tw st vs).unmarked a → tw.unmarked a := by
  induction vs generalizing tw st with
  | nil => exact ⟨rfl, fun _ h => h⟩
  | cons act vs ih =>
    have h' := fun act hx => h act (List.mem_cons_of_mem _ hx)
    cases act with
    | store a v => exact absurd rfl ((h _ List.mem_cons_self).1 a v)
    | fetch a => exact ih h' (tw.fetched a) st
    | call op =>
      obtain ⟨g1, g2⟩ := ih h' (tw.called cfg st op b l pg) (call cfg st op).st
      exact ⟨g1, fun a ha => (g2 a ha).1⟩

theorem still_dirty {vs : List Act} (h : ∀ act ∈ vs, act.Still) {t : Tbl} {d : Book} {st : St} {p : Nat}
    (hd : ¬ d.dirty b l p) : ¬ (book cfg t d st (callsOf vs)).dirty b l p := by
  induction vs generalizing t d st with
  | nil => exact hd
  | cons act vs ih =>
    have h' := fun act hx => h act (List.mem_cons_of_mem _ hx)
    cases act with
    | store a v => exact absurd rfl ((h _ List.mem_cons_self).1 a v)
    | fetch a => exact ih h' hd
    | call op =>
      refine ih h' ?_
      rw [jotCall_dirty]
      rintro ⟨g | ⟨sgl, g, _⟩, _⟩
      · exact hd g
      · exact (h _ List.mem_cons_self).2 sgl (by rw [g])

theorem Watched.cut {us vs : List Op} (h : Watched cfg mig x pci ops (us ++ vs) b l pg) :
    Watched cfg mig x pci ops us b l pg where
  talk := by have := h.talk; rw [← List.append_assoc] at this; exact this.prefix
  paged := h.paged
  mapped u v e := h.mapped u (v ++ vs) (by rw [e, List.append_assoc])
  logged u v e := h.logged u (v ++ vs) (by rw [e, List.append_assoc])

/-- C101: once the device has stopped and marked what it stored, a client that asks for a last report and fetches what it has been
told to fetch has the memory of the source. -/
theorem C101_moved {us vs : List Act} {op : Op} {tw : Copies}
    (h : Watched cfg mig x pci ops (callsOf (us ++ .call op :: vs)) b l pg)
    (h0 : ∀ a, b ≤ a → a < b + l → tw.src a ≠ tw.dst a → tw.unmarked a ∨ tw.due a ∨
      (book cfg Tbl.empty Book.none (init cfg mig (some x) pci) ops).dirty b l ((a - b) / pg))
    (hmk : ∀ a, b ≤ a → a < b + l → ¬ (migrate cfg b l pg tw (run cfg (init cfg mig (some x) pci) ops).1 us).unmarked a)
    {w : Wire.Sent} (hrp : Reports cfg (run cfg (init cfg mig (some x) pci) (ops ++ callsOf us)).1 op b l w)
    (hvs : ∀ act ∈ vs, act.Still)
    (hdue : ∀ a, b ≤ a → a < b + l →
      ¬ (migrate cfg b l pg tw (run cfg (init cfg mig (some x) pci) ops).1 (us ++ .call op :: vs)).due a)
    (a : Nat) (ha : b ≤ a) (hal : a < b + l) :
    (migrate cfg b l pg tw (run cfg (init cfg mig (some x) pci) ops).1 (us ++ .call op :: vs)).dst a =
      (migrate cfg b l pg tw (run cfg (init cfg mig (some x) pci) ops).1 us).src a := by
  have hc0 : Completes cfg (init cfg mig (some x) pci) (ops ++ callsOf us ++ op :: callsOf vs) := by
    have := h.talk.talk.ends
    rw [callsOf_append] at this
    rw [List.append_assoc]
    exact this
  obtain ⟨hc1, hc2⟩ := (completes_append _ _).mp hc0
  obtain ⟨hc3, hc4⟩ := (completes_append _ _).mp hc1
  have happ := migrate_append (b := b) (l := l) (pg := pg) us (.call op :: vs) (tw := tw) hc4
  have hstill := still_src (cfg := cfg) (b := b) (l := l) (pg := pg) hvs
    ((migrate cfg b l pg tw (run cfg (init cfg mig (some x) pci) ops).1 us).called cfg
      (run cfg (run cfg (init cfg mig (some x) pci) ops).1 (callsOf us)).1 op b l pg)
    (call cfg (run cfg (run cfg (init cfg mig (some x) pci) ops).1 (callsOf us)).1 op).st
  change (migrate cfg b l pg _ _ (.call op :: vs)).src = _ ∧ (∀ a, (migrate cfg b l pg _ _ (.call op :: vs)).unmarked a → _) at hstill
  rw [← happ] at hstill
  have key := C101_behind h h0 a ha hal
  by_contra hne
  rcases key (fun e => hne (by rw [← e, hstill.1]; rfl)) with g | g | g
  · exact hmk a ha hal (hstill.2 a g).1
  · exact hdue a ha hal g
  · rw [callsOf_append, ← List.append_assoc, book_append _ _ hc1] at g
    refine still_dirty hvs (d := jotCall _ _ _ op _) ?_ g
    rw [jotCall_dirty]
    rintro ⟨_, g⟩
    obtain ⟨m, r1, r2, r3, r4, r5, r6, r7⟩ := hrp
    exact g (.inr ⟨m, w, r1, r5, r6, .inr ⟨r7, .inr ⟨.inl r2, r3, r4⟩⟩⟩)

theorem migrate_fetch (fs : List Nat) (tw : Copies) (st : St) (a : Nat) :
    (migrate cfg b l pg tw st (fs.map .fetch)).due a ↔ tw.due a ∧ a ∉ fs := by
  induction fs generalizing tw with
  | nil => simp [migrate]
  | cons f fs ih =>
    show (migrate cfg b l pg (tw.fetched f) st (fs.map .fetch)).due a ↔ _
    rw [ih]
    show (tw.due a ∧ a ≠ f) ∧ a ∉ fs ↔ _
    rw [List.mem_cons, not_or, and_assoc]

theorem callsOf_fetch (fs : List Nat) : callsOf (fs.map .fetch) = [] := by
  induction fs with
  | nil => rfl
  | cons f fs ih => exact ih

/-- C101: and it can: the last report is answered, and fetching the bytes it names and those told before completes the copy. -/
theorem C101_finish {us : List Act} {tw : Copies} {env : Env} {m : Msg} {v : Dma.Attr} {s n : Nat}
    (h : Watched cfg mig x pci ops (callsOf us ++ [.run env (.req m.hdr m.body m.fds)]) b l pg)
    (h0 : ∀ a, b ≤ a → a < b + l → tw.src a ≠ tw.dst a → tw.unmarked a ∨ tw.due a ∨
      (book cfg Tbl.empty Book.none (init cfg mig (some x) pci) ops).dirty b l ((a - b) / pg))
    (hmk : ∀ a, b ≤ a → a < b + l → ¬ (migrate cfg b l pg tw (run cfg (init cfg mig (some x) pci) ops).1 us).unmarked a)
    (hn : Next cfg env (run cfg (init cfg mig (some x) pci) (ops ++ callsOf us)).1 m) (hhint : env.hint < x.1)
    (hv : account cfg Tbl.empty (init cfg mig (some x) pci) (ops ++ callsOf us) b l = some v) (hfd : v.fd ≠ none)
    (hm : m.asksLog) (hl : 32 ≤ m.body.length) (hb : leAt m.body 8 8 = b) (hsz : leAt m.body 16 8 = l)
    (hpg : leAt m.body 24 8 = pg) (hmig : (run cfg (init cfg mig (some x) pci) (ops ++ callsOf us)).1.mig = some s)
    (hbm : getBitmapSize l pg = .ok n) (hroom : 32 + n ≤ leAt m.body 0 4) :
    ∃ w, Reports cfg (run cfg (init cfg mig (some x) pci) (ops ++ callsOf us)).1 (.run env (.req m.hdr m.body m.fds)) b l w ∧
      ∀ fs : List Nat, (∀ a, b ≤ a → a < b + l →
          (migrate cfg b l pg tw (run cfg (init cfg mig (some x) pci) ops).1 us).due a ∨ Names w b l pg a → a ∈ fs) →
        ∀ a, b ≤ a → a < b + l →
          (migrate cfg b l pg tw (run cfg (init cfg mig (some x) pci) ops).1
            (us ++ .call (.run env (.req m.hdr m.body m.fds)) :: fs.map .fetch)).dst a =
          (migrate cfg b l pg tw (run cfg (init cfg mig (some x) pci) ops).1 us).src a := by
  obtain ⟨bm, ⟨_, _, hans⟩, hlen, _⟩ := C80_answered h.cut.talk hn hhint (by rw [hb, hsz]; exact hv) hfd
    (by rw [hpg]; exact (h.cut.logged (callsOf us) [] (List.append_nil _).symm).symm) hm hl hmig
    (by rw [hsz, hpg]; exact hbm) hroom
  have hgood := (h.talk.talk.each _ (List.mem_append_right _ (List.mem_append_right _ (List.mem_singleton_self _)))).2.2
  obtain ⟨w, hw, hte, _⟩ := hans (hgood.2 _ _ _ rfl (.inr (.inr hm)))
  obtain ⟨⟨hd, hd1, hd2⟩, hflag⟩ := hte
  have hrp : Reports cfg (run cfg (init cfg mig (some x) pci) (ops ++ callsOf us)).1
      (.run env (.req m.hdr m.body m.fds)) b l w := by
    refine ⟨m, rfl, hm, hb, hsz, hw, by rw [hflag]; rfl, ?_⟩
    rw [hd2, List.length_append, hd1]
    simp [enc_length]
  refine ⟨w, hrp, fun fs hfs a ha hal => ?_⟩
  have hcalls : callsOf (us ++ .call (.run env (.req m.hdr m.body m.fds)) :: fs.map .fetch) =
      callsOf us ++ [.run env (.req m.hdr m.body m.fds)] := by
    rw [callsOf_append]
    show callsOf us ++ (_ :: callsOf (fs.map .fetch)) = _
    rw [callsOf_fetch]
  have hc := (completes_append _ _).mp h.cut.talk.talk.ends
  refine C101_moved (vs := fs.map .fetch) (by rw [hcalls]; exact h) h0 hmk hrp (fun act hx => ?_) (fun c hc1 hc2 hdue => ?_)
    a ha hal
  · obtain ⟨f, _, rfl⟩ := List.mem_map.mp hx
    exact ⟨fun _ _ he => (by cases he), fun _ he => (by cases he)⟩
  · rw [migrate_append us _ hc.2] at hdue
    change (migrate cfg b l pg _ _ (fs.map .fetch)).due c at hdue
    rw [migrate_fetch] at hdue
    obtain ⟨g1, g2⟩ := hdue
    apply g2
    apply hfs c hc1 hc2
    rcases g1 with g1 | ⟨w', hr', hn'⟩
    · exact .inl g1
    · rw [← run_append _ _ hc.1] at hr'
      obtain ⟨_, _, _, _, _, e, _⟩ := hr'
      rw [hw] at e
      cases e
      exact .inr hn'

end

/-! ## Marking too early -/

namespace Demo

/-- The range is mapped and logged. -/
def logOn : List Op := written.take 3

/-- The device marks its pages 3 and 4. -/
def marking : Op := .mark [⟨0x1000000, 0, 0x1000, 0x3800, true⟩]

/-- All is copied. -/
def even : Copies := { src := fun _ => 0#8, dst := fun _ => 0#8, unmarked := fun _ => False, due := fun _ => False }

theorem logOn_completes : Completes cfg (init cfg true (some (8, 2 ^ 40)) pci) logOn := by
  refine ⟨by decide +kernel, by decide +kernel, by decide +kernel, trivial⟩

end Demo

open Demo in
/-- A device that marks first and stores afterwards, with a report in between: the client fetches what the report names, the next
report names nothing, and the byte stored is not at the destination. -/
theorem C101_early (fs : List Nat) (hfs : ∀ a, 0x1003000 ≤ a → a < 0x1005000 → a ∈ fs) :
    let us : List Act := .call marking :: .call (ask 0x1000000 0x200000) ::
      (fs.map .fetch ++ [.store 0x1003800 7#8])
    let tw := migrate cfg 0x1000000 0x200000 0x1000 even (run cfg (init cfg true (some (8, 2 ^ 40)) pci) logOn).1 us
    (∀ a, 0x1000000 ≤ a → a < 0x1200000 → ¬ tw.due a) ∧ tw.dst 0x1003800 ≠ tw.src 0x1003800 ∧
    (said (logOn ++ callsOf us) (ask 0x1000000 0x200000)).map (fun l => l.drop 32) = [List.replicate 64 0#8] := by
  have hcalls : callsOf (.call marking :: .call (ask 0x1000000 0x200000) ::
      (fs.map .fetch ++ [.store 0x1003800 7#8])) = [marking, ask 0x1000000 0x200000] := by
    show _ :: _ :: callsOf (fs.map .fetch ++ _) = _
    rw [callsOf_append, callsOf_fetch]
    rfl
  intro us tw
  have hw : (said (logOn ++ [marking]) (ask 0x1000000 0x200000)).map (fun l => l.drop 32) = [24#8 :: List.replicate 63 0#8] := by
    decide +kernel
  refine ⟨fun a ha hal hdue => ?_, ?_, ?_⟩
  · change (migrate cfg 0x1000000 0x200000 0x1000 _ _ (fs.map .fetch ++ [.store 0x1003800 7#8])).due a at hdue
    rw [migrate_append _ _ (by rw [callsOf_fetch]; trivial)] at hdue
    change (migrate cfg 0x1000000 0x200000 0x1000 _ _ (fs.map .fetch)).due a at hdue
    rw [migrate_fetch] at hdue
    obtain ⟨(h | h) | ⟨w, h, hn⟩, hf⟩ := hdue
    · exact h
    · obtain ⟨w, ⟨m, hm, _⟩, _⟩ := h
      cases hm
    · apply hf
      obtain ⟨_, _, _, _, _, hs, _⟩ := h
      have hst : (call cfg (run cfg (init cfg true (some (8, 2 ^ 40)) pci) logOn).1 marking).st =
          (run cfg (init cfg true (some (8, 2 ^ 40)) pci) (logOn ++ [marking])).1 := by
        rw [run_append _ _ logOn_completes]
        rfl
      rw [hst] at hs
      unfold said at hw
      rw [hs] at hw
      simp only [List.map_cons, List.map_nil, List.cons.injEq, and_true, List.drop_drop] at hw
      have hbit := hn.2.2
      rw [hw] at hbit
      have hlt : (a - 0x1000000) / 0x1000 < 512 := by omega
      have hp : ∀ p, p < 512 → Dma.bit (24#8 :: List.replicate 63 0#8) p = true → p = 3 ∨ p = 4 := by decide +kernel
      have := hp _ hlt hbit
      exact hfs a (by omega) (by omega)
  · intro he
    have hsrc : ∀ (fs : List Nat) (x : Copies) (st : St), x.src = (fun _ => 0#8) → x.dst 0x1003800 = 0#8 →
        (migrate cfg 0x1000000 0x200000 0x1000 x st (fs.map .fetch)).dst 0x1003800 = 0#8 := by
      intro fs
      induction fs with
      | nil => exact fun x st h1 h2 => h2
      | cons f fs ih =>
        intro x st h1 h2
        refine ih (x.fetched f) st h1 ?_
        show (if 0x1003800 = f then x.src f else x.dst 0x1003800) = 0#8
        rw [h1, h2, ite_self]
    change (migrate cfg 0x1000000 0x200000 0x1000 _ _ (fs.map .fetch ++ [.store 0x1003800 7#8])).dst _ =
      (migrate cfg 0x1000000 0x200000 0x1000 _ _ (fs.map .fetch ++ [.store 0x1003800 7#8])).src _ at he
    rw [migrate_append _ _ (by rw [callsOf_fetch]; trivial)] at he
    have hst : ∀ (x : Copies) (st : St), (migrate cfg 0x1000000 0x200000 0x1000 x st [.store 0x1003800 7#8]).src 0x1003800 = 7#8 ∧
        (migrate cfg 0x1000000 0x200000 0x1000 x st [.store 0x1003800 7#8]).dst = x.dst := fun x st =>
      ⟨(by show (if 0x1003800 = 0x1003800 then 7#8 else x.src 0x1003800) = 7#8; rw [if_pos rfl]), rfl⟩
    rw [(hst _ _).1, (hst _ _).2, hsrc _ _ _ rfl rfl] at he
    cases he
  · show (said (logOn ++ callsOf us) _).map _ = _
    rw [hcalls]
    decide +kernel

/-! ## Examples -/

section
open Demo

theorem logOn_watched :
    Watched cfg true (8, 2 ^ 40) pci logOn [marking, ask 0x1000000 0x200000] 0x1000000 0x200000 0x1000 where
  talk := written_logTalk
  paged := by decide
  mapped u v e := by
    rcases u with _ | ⟨o1, _ | ⟨o2, _ | ⟨_, _⟩⟩⟩
    · decide +kernel
    · cases e; decide +kernel
    · cases e; decide +kernel
    · cases e
  logged u v e := by
    rcases u with _ | ⟨o1, _ | ⟨o2, _ | ⟨_, _⟩⟩⟩
    · decide +kernel
    · cases e; decide +kernel
    · cases e; decide +kernel
    · cases e

/-- Nothing is copied yet; all is to be fetched.  The device stores a byte of page 3 and marks it; the last report is answered, and
whoever fetches the whole range has the memory, with the byte stored. -/
example (fs : List Nat) (hfs : ∀ a, 0x1000000 ≤ a → a < 0x1200000 → a ∈ fs) :
    let tw : Copies := { src := fun _ => 0#8, dst := fun _ => 1#8, unmarked := fun _ => False, due := fun _ => True }
    let us : List Act := [.fetch 0x1001000, .store 0x1003800 7#8, .call marking]
    let tw' := migrate cfg 0x1000000 0x200000 0x1000 tw (run cfg (init cfg true (some (8, 2 ^ 40)) pci) logOn).1
      (us ++ .call (ask 0x1000000 0x200000) :: fs.map .fetch)
    ∀ a, 0x1000000 ≤ a → a < 0x1200000 → tw'.dst a = if a = 0x1003800 then 7#8 else 0#8 := by
  intro tw us tw'
  have hn : Next cfg env (run cfg (init cfg true (some (8, 2 ^ 40)) pci) (logOn ++ callsOf us)).1
      ⟨hdr 8 16 0 32, askBody 0x1000000 0x200000, []⟩ :=
    afterWrites_next 8 16 (askBody 0x1000000 0x200000) [] (by decide) (by decide) (by decide) (by decide) (by decide)
  obtain ⟨w, _, h⟩ := C101_finish (cfg := cfg) (mig := true) (x := (8, 2 ^ 40)) (pci := pci) (ops := logOn) (us := us)
    (tw := tw) (b := 0x1000000) (l := 0x200000) (pg := 0x1000) (v := ⟨⟨true, true⟩, 0, some 5⟩) (s := 2) (n := 64)
    logOn_watched (fun a _ _ _ => .inr (.inl trivial))
    (fun a ha hal hu => by
      obtain ⟨h | h, hm⟩ := hu
      · exact hm ⟨_, _, rfl, List.mem_singleton_self _, rfl, by rw [h]; decide, by rw [h]; decide⟩
      · exact h)
    hn (by decide) (by decide +kernel) (by decide) ⟨rfl, by decide⟩ (by decide) (by decide) (by decide) (by decide)
    (by decide +kernel) (by decide) (by decide)
  intro a ha hal
  exact h fs (fun c hc hcl _ => hfs c hc hcl) a ha hal

/-- C101_behind: after the device stored and before it marks, the byte is the only one that may differ. -/
example (a : Nat) (ha : 0x1000000 ≤ a) (hal : a < 0x1200000) :
    let tw' := migrate cfg 0x1000000 0x200000 0x1000 even (run cfg (init cfg true (some (8, 2 ^ 40)) pci) logOn).1
      [.store 0x1003800 7#8]
    tw'.src 0x1003800 ≠ tw'.dst 0x1003800 ∧ (tw'.src a ≠ tw'.dst a → a = 0x1003800) := by
  intro tw'
  refine ⟨by decide, fun hne => ?_⟩
  have hb : ∀ p, ¬ (book cfg Tbl.empty Book.none (init cfg true (some (8, 2 ^ 40)) pci) logOn).dirty 0x1000000 0x200000 p := by
    intro p hp
    rw [book_dirty _ _ _ logOn_completes] at hp
    rcases hp with ⟨h, _⟩ | ⟨u, op, v, h, ⟨sgl, rfl, _⟩, _⟩
    · exact h
    · have : Op.mark sgl ∈ logOn := by rw [h]; simp
      simp only [logOn, written, List.take_succ_cons, List.take_zero, List.mem_cons, List.not_mem_nil, or_false,
        reduceCtorEq] at this
  rcases C101_behind (tw := even) (as := [.store 0x1003800 7#8]) (logOn_watched.cut (us := []) (vs := [_, _]))
    (fun c _ _ h => absurd rfl h) a ha hal hne with (h | h) | h | h
  · exact h
  · exact h.elim
  · exact h.elim
  · exact absurd h (hb _)

end

end Verif.Server
