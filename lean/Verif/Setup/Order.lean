import Verif.Setup.Props

/-!
# The order of the set-up calls (C104)

* A call concerns one topic: a region, the config space, the number of one type of interrupts, …
* Two histories that agree on the order of the calls of every topic build the same device, and every call returns the same.
* Within the topic of the config space the order matters.
-/

namespace Verif.Setup
open Verif

/-- What a call of the set-up is about. -/
inductive Topic where
  | region (i : Nat)
  | config
  | irqs (t : Nat)
  | irqCb (t : Nat)
  | quiesce
  | reset
  | dma
  | migration
  | ready
  deriving DecidableEq, Repr

/-- The region of an index; the config space is region 7. -/
def regionTopic (i : Nat) : Topic := if i = 7 then .config else .region i

/-- The topic of a call. -/
def Call.topic : Call → Topic
  | .region _ a => regionTopic a.idx.toNat
  | .ioeventfd _ _ idx _ => regionTopic idx
  | .pciInit _ _ _ => .config
  | .setId _ _ _ _ => .config
  | .setClass _ _ _ => .config
  | .capability _ _ _ => .config
  | .store _ _ => .config
  | .nrIrqs t _ => .irqs t
  | .irqStateCb t _ => .irqCb t
  | .quiesceCb _ => .quiesce
  | .resetCb _ => .reset
  | .dma _ _ _ => .dma
  | .migration _ _ _ => .migration
  | .realize _ _ => .ready

/-- The calls of one topic, in order. -/
def about (t : Topic) (ks : List Call) : List Call := ks.filter (fun k => decide (k.topic = t))

/-- What the calls of one topic returned, in order. -/
def answers (t : Topic) (c : Ctx) (ks : List Call) : List (Res Nat) :=
  ((ks.zip (run c ks).2).filter (fun x => decide (x.1.topic = t))).map Prod.snd

/-- None of the calls crashes. -/
def Smooth (c : Ctx) (ks : List Call) : Prop := ∀ r ∈ (run c ks).2, r.isFault = false

/-! ## The parts of a context -/

/-- Two contexts agree on a topic; the entry of region 7 belongs to the config space. -/
def Agree : Topic → Ctx → Ctx → Prop
  | .region i, c, d => i ≠ 7 → c.tbl[i]? = d.tbl[i]?
  | .config, c, d => c.tbl[7]? = d.tbl[7]? ∧ c.mem = d.mem ∧ c.alloc = d.alloc ∧ c.big = d.big ∧ c.caps = d.caps ∧
      c.exts = d.exts ∧ c.expOff = d.expOff
  | .irqs t, c, d => c.cnt t = d.cnt t
  | .irqCb t, c, d => c.irqCb t = d.irqCb t
  | .quiesce, c, d => c.hasQuiesce = d.hasQuiesce
  | .reset, c, d => c.hasReset = d.hasReset
  | .dma, c, d => c.dma = d.dma ∧ c.dmaCbs = d.dmaCbs
  | .migration, c, d => c.mig = d.mig
  | .ready, c, d => c.realized = d.realized

theorem Agree.refl (t : Topic) (c : Ctx) : Agree t c c := by
  cases t <;> simp [Agree]

theorem Agree.symm {t : Topic} {c d : Ctx} (h : Agree t c d) : Agree t d c := by
  cases t <;> simp only [Agree] at h ⊢
  case config => obtain ⟨a, b, e, f, g, i, j⟩ := h; exact ⟨a.symm, b.symm, e.symm, f.symm, g.symm, i.symm, j.symm⟩
  case dma => exact ⟨h.1.symm, h.2.symm⟩
  case region => exact fun h7 => (h h7).symm
  all_goals exact h.symm

theorem Agree.trans {t : Topic} {c d e : Ctx} (h : Agree t c d) (k : Agree t d e) : Agree t c e := by
  cases t <;> simp only [Agree] at h k ⊢
  case config =>
    obtain ⟨a, b, c, d, e, f, g⟩ := h
    obtain ⟨a', b', c', d', e', f', g'⟩ := k
    exact ⟨a.trans a', b.trans b', c.trans c', d.trans d', e.trans e', f.trans f', g.trans g'⟩
  case dma => exact ⟨h.1.trans k.1, h.2.trans k.2⟩
  case region => exact fun h7 => (h h7).trans (k h7)
  all_goals exact h.trans k

theorem eq_of_agree {c d : Ctx} (h : ∀ t, Agree t c d) : c = d := by
  have h0 : c.tbl = d.tbl := by
    apply List.ext_getElem?
    intro i
    by_cases h7 : i = 7
    · rw [h7]; exact (h .config).1
    · exact h (.region i) h7
  obtain ⟨_, h1, h2, h3, h4, h5, h6⟩ := h .config
  have h7 : c.cnt = d.cnt := funext fun t => h (.irqs t)
  have h8 : c.irqCb = d.irqCb := funext fun t => h (.irqCb t)
  have h9 := h .quiesce
  have h10 := h .reset
  obtain ⟨h11, h12⟩ := h .dma
  have h13 := h .migration
  have h14 := h .ready
  cases c; cases d
  simp only [Agree] at *
  subst h0 h1 h2 h3 h4 h5 h6 h7 h8 h9 h10 h11 h12 h13 h14
  rfl

/-! ## One call -/

theorem setup_local (alloc : Bool) {t t' : List Region.Reg} (a : Region.Setup) (h : t[a.idx.toNat]? = t'[a.idx.toNat]?) :
    (Region.setup alloc t a).2 = (Region.setup alloc t' a).2 ∧
      (Region.setup alloc t a).1[a.idx.toNat]? = (Region.setup alloc t' a).1[a.idx.toNat]? := by
  unfold Region.setup
  split; · exact ⟨rfl, h⟩
  split; · exact ⟨rfl, h⟩
  split; · exact ⟨rfl, h⟩
  split; · exact ⟨rfl, h⟩
  split; · exact ⟨rfl, h⟩
  split; · exact ⟨rfl, h⟩
  rw [← h]
  cases hq : t[a.idx.toNat]? with
  | none => exact ⟨rfl, by rw [hq, ← h, hq]⟩
  | some old =>
    have hl : a.idx.toNat < t.length := (List.getElem?_eq_some_iff.1 hq).1
    have hl' : a.idx.toNat < t'.length := (List.getElem?_eq_some_iff.1 (h ▸ hq)).1
    dsimp only
    generalize (if a.areas = [] ∧ a.fd ≠ none then [(0, a.size)] else a.areas) = ar
    split
    · exact ⟨rfl, by rw [List.getElem?_set_self hl, List.getElem?_set_self hl']⟩
    · split
      · exact ⟨rfl, by rw [List.getElem?_set_self hl, List.getElem?_set_self hl']⟩
      · exact ⟨rfl, by rw [List.getElem?_set_self hl, List.getElem?_set_self hl']⟩

theorem setup_else (alloc : Bool) (t : List Region.Reg) (a : Region.Setup) {i : Nat} (h : i ≠ a.idx.toNat) :
    (Region.setup alloc t a).1[i]? = t[i]? := by
  unfold Region.setup
  split; · rfl
  split; · rfl
  split; · rfl
  split; · rfl
  split; · rfl
  split; · rfl
  cases hq : t[a.idx.toNat]? with
  | none => rfl
  | some old =>
    dsimp only
    generalize (if a.areas = [] ∧ a.fd ≠ none then [(0, a.size)] else a.areas) = ar
    split
    · exact List.getElem?_set_ne (Ne.symm h)
    · split
      · exact List.getElem?_set_ne (Ne.symm h)
      · exact List.getElem?_set_ne (Ne.symm h)

theorem sub_local (shadow alloc : Bool) {t t' : List Region.Reg} (i : Nat) (s : Region.Sub) (h : t[i]? = t'[i]?) :
    (Region.createIoeventfd shadow alloc t i s).2 = (Region.createIoeventfd shadow alloc t' i s).2 ∧
      (Region.createIoeventfd shadow alloc t i s).1[i]? = (Region.createIoeventfd shadow alloc t' i s).1[i]? := by
  unfold Region.createIoeventfd
  split; · exact ⟨rfl, h⟩
  split; · exact ⟨rfl, h⟩
  rw [← h]
  cases hq : t[i]? with
  | none => exact ⟨rfl, by rw [hq, ← h, hq]⟩
  | some r =>
    have hl : i < t.length := (List.getElem?_eq_some_iff.1 hq).1
    have hl' : i < t'.length := (List.getElem?_eq_some_iff.1 (h ▸ hq)).1
    dsimp only
    split; · exact ⟨rfl, h⟩
    split; · exact ⟨rfl, h⟩
    exact ⟨rfl, by rw [List.getElem?_set_self hl, List.getElem?_set_self hl']⟩

theorem sub_else (shadow alloc : Bool) (t : List Region.Reg) (j : Nat) (s : Region.Sub) {i : Nat} (h : i ≠ j) :
    (Region.createIoeventfd shadow alloc t j s).1[i]? = t[i]? := by
  unfold Region.createIoeventfd
  split; · rfl
  split; · rfl
  cases hq : t[j]? with
  | none => rfl
  | some r =>
    dsimp only
    split; · rfl
    split; · rfl
    exact List.getElem?_set_ne (Ne.symm h)

theorem lastLink_bar (p : Pci.Pci) (b : Nat → Nat × Bool) (n : Nat) : ∀ a, Pci.lastLink { p with bar := b } n a = Pci.lastLink p n a := by
  induction n with
  | zero => intro a; rfl
  | succ n ih => intro a; simp only [Pci.lastLink, ih]

theorem lastExt_bar (p : Pci.Pci) (b : Nat → Nat × Bool) (n : Nat) : ∀ a, Pci.lastExt { p with bar := b } n a = Pci.lastExt p n a := by
  induction n with
  | zero => intro a; rfl
  | succ n ih => intro a; simp only [Pci.lastExt, ih]

theorem stdPlace_bar (p : Pci.Pci) (b : Nat → Nat × Bool) (pos size : Nat) :
    Pci.stdPlace { p with bar := b } pos size = Pci.stdPlace p pos size := by
  unfold Pci.stdPlace
  rw [lastLink_bar]
  rfl

theorem extPlace_bar (p : Pci.Pci) (b : Nat → Nat × Bool) (pos size : Nat) :
    Pci.extPlace { p with bar := b } pos size = Pci.extPlace p pos size := by
  unfold Pci.extPlace
  rw [lastExt_bar]
  rfl

theorem addCap_bar (h : Bool) (p : Pci.Pci) (b : Nat → Nat × Bool) (pos : Nat) (fl : Pci.CapFlags) (data : List Byte) :
    Pci.addCap h { p with bar := b } pos fl data =
      ({ (Pci.addCap h p pos fl data).1 with bar := b }, (Pci.addCap h p pos fl data).2) := by
  unfold Pci.addCap
  split; · rfl
  split; · rfl
  split
  · unfold Pci.addExt
    simp only [extPlace_bar]
    split; · rfl
    split; · rfl
    split; · rfl
    split; · rfl
    split; · rfl
    · rfl
    split; · rfl
    split; · rfl
    split; · rfl
    split; · rfl
    split <;> rfl
  · unfold Pci.addStd
    simp only [stdPlace_bar]
    split; · rfl
    split; · rfl
    split; · rfl
    split; · rfl
    · rfl
    split; · rfl
    split; · rfl
    split <;> rfl

theorem capability_local {c d : Ctx} (h : Agree .config c d) (pos : Nat) (fl : Pci.CapFlags) (data : List Byte) :
    (capability c pos fl data).2 = (capability d pos fl data).2 ∧
      Agree .config (capability c pos fl data).1 (capability d pos fl data).1 := by
  obtain ⟨h7, h1, h2, h3, h4, h5, h6⟩ := h
  have hb : c.cfgCb = d.cfgCb := by simp only [Ctx.cfgCb, h7]
  have hs : c.cfgSize = d.cfgSize := by simp only [Ctx.cfgSize, h7]
  have hp : d.pci = { c.pci with bar := d.pci.bar } := by
    simp only [Ctx.pci, h1, h2, h3, h4, h5, h6, hs]
  have he := addCap_bar c.cfgCb c.pci d.pci.bar pos fl data
  rw [← hp] at he
  unfold capability
  rw [← hb, he, ← h2]
  dsimp only
  split
  · exact ⟨rfl, h7, h1, h2, h3, h4, h5, h6⟩
  · exact ⟨rfl, h7, rfl, rfl, h3, rfl, rfl, rfl⟩

/-- A call does to its topic what the topic says. -/
theorem step_topic (k : Call) {c d : Ctx} (hk : k.topic ≠ .ready) (h : Agree k.topic c d) :
    (step c k).2 = (step d k).2 ∧ Agree k.topic (step c k).1 (step d k).1 := by
  cases k with
  | region alloc a =>
    have ht : c.tbl[a.idx.toNat]? = d.tbl[a.idx.toNat]? := by
      simp only [Call.topic, regionTopic] at h
      by_cases h7 : a.idx.toNat = 7
      · rw [if_pos h7] at h; rw [h7]; exact h.1
      · rw [if_neg h7] at h; exact h h7
    obtain ⟨e1, e2⟩ := setup_local alloc a ht
    simp only [step, Call.topic, regionTopic] at h ⊢
    generalize Region.setup alloc c.tbl a = x at e1 e2 ⊢
    generalize Region.setup alloc d.tbl a = y at e1 e2 ⊢
    obtain ⟨x1, x2⟩ := x
    obtain ⟨y1, y2⟩ := y
    dsimp only at e1 e2
    subst e1
    by_cases h7 : a.idx.toNat = 7
    · rw [if_pos h7] at h ⊢
      rw [h7] at e2
      cases x2 with
      | ok u => exact ⟨rfl, e2, h.2⟩
      | err e => exact ⟨rfl, e2, h.2⟩
      | fault f => exact ⟨rfl, h⟩
    · rw [if_neg h7] at h ⊢
      cases x2 with
      | ok u => exact ⟨rfl, fun _ => e2⟩
      | err e => exact ⟨rfl, fun _ => e2⟩
      | fault f => exact ⟨rfl, h⟩
  | ioeventfd shadow alloc i s =>
    have ht : c.tbl[i]? = d.tbl[i]? := by
      simp only [Call.topic, regionTopic] at h
      by_cases h7 : i = 7
      · rw [if_pos h7] at h; rw [h7]; exact h.1
      · rw [if_neg h7] at h; exact h h7
    obtain ⟨e1, e2⟩ := sub_local shadow alloc i s ht
    simp only [step, Call.topic, regionTopic] at h ⊢
    generalize Region.createIoeventfd shadow alloc c.tbl i s = x at e1 e2 ⊢
    generalize Region.createIoeventfd shadow alloc d.tbl i s = y at e1 e2 ⊢
    obtain ⟨x1, x2⟩ := x
    obtain ⟨y1, y2⟩ := y
    dsimp only at e1 e2
    subst e1
    by_cases h7 : i = 7
    · rw [if_pos h7] at h ⊢
      rw [h7] at e2
      cases x2 with
      | ok u => exact ⟨rfl, e2, h.2⟩
      | err e => exact ⟨rfl, e2, h.2⟩
      | fault f => exact ⟨rfl, h⟩
    · rw [if_neg h7] at h ⊢
      cases x2 with
      | ok u => exact ⟨rfl, fun _ => e2⟩
      | err e => exact ⟨rfl, fun _ => e2⟩
      | fault f => exact ⟨rfl, h⟩
  | pciInit alloc type hdr =>
    obtain ⟨h7, h1, h2, h3, h4, h5, h6⟩ := h
    simp only [step, Call.topic, pciInit]
    rw [← h2, ← h7]
    split; · exact ⟨rfl, h7, h1, h2, h3, h4, h5, h6⟩
    split; · exact ⟨rfl, h7, h1, h2, h3, h4, h5, h6⟩
    split; · exact ⟨rfl, h7, h1, h2, h3, h4, h5, h6⟩
    split; · exact ⟨rfl, h7, h1, h2, h3, h4, h5, h6⟩
    cases hq : c.tbl[7]? with
    | none => exact ⟨rfl, h7, h1, h2, h3, h4, h5, h6⟩
    | some r =>
      have hl : 7 < c.tbl.length := (List.getElem?_eq_some_iff.1 hq).1
      have hl' : 7 < d.tbl.length := (List.getElem?_eq_some_iff.1 (h7 ▸ hq)).1
      refine ⟨rfl, ?_, rfl, rfl, rfl, h4, h5, h6⟩
      dsimp only
      rw [List.getElem?_set_self hl, List.getElem?_set_self hl']
  | setId v dd sv sd =>
    obtain ⟨h7, h1, h2, h3, h4, h5, h6⟩ := h
    simp only [step, Call.topic, setId]
    rw [← h2, ← h1]
    split
    · exact ⟨rfl, h7, h1, h2, h3, h4, h5, h6⟩
    · exact ⟨rfl, h7, rfl, rfl, h3, h4, h5, h6⟩
  | setClass b s p =>
    obtain ⟨h7, h1, h2, h3, h4, h5, h6⟩ := h
    simp only [step, Call.topic, setClass]
    rw [← h2, ← h1]
    split
    · exact ⟨rfl, h7, h1, h2, h3, h4, h5, h6⟩
    · exact ⟨rfl, h7, rfl, rfl, h3, h4, h5, h6⟩
  | capability pos fl data => exact capability_local h pos fl data
  | store off bytes =>
    obtain ⟨h7, h1, h2, h3, h4, h5, h6⟩ := h
    simp only [step, Call.topic, store]
    rw [← h2, ← h1]
    split
    · exact ⟨rfl, h7, h1, h2, h3, h4, h5, h6⟩
    · exact ⟨rfl, h7, rfl, rfl, h3, h4, h5, h6⟩
  | nrIrqs t n =>
    simp only [step, Call.topic]
    split
    · exact ⟨rfl, h⟩
    · exact ⟨rfl, by simp [Agree]⟩
  | irqStateCb t b =>
    simp only [step, Call.topic]
    split
    · exact ⟨rfl, h⟩
    · exact ⟨rfl, by simp [Agree]⟩
  | quiesceCb b => exact ⟨rfl, rfl⟩
  | resetCb b => exact ⟨rfl, rfl⟩
  | dma alloc reg unreg =>
    simp only [step, Call.topic]
    split
    · exact ⟨rfl, rfl, h.2⟩
    · exact ⟨rfl, rfl, rfl⟩
  | migration alloc v cbs =>
    simp only [step, Call.topic]
    split; · exact ⟨rfl, h⟩
    split; · exact ⟨rfl, rfl⟩
    split; · exact ⟨rfl, rfl⟩
    exact ⟨rfl, rfl⟩
  | realize a b => exact absurd rfl hk

theorem table_other {c : Ctx} {x : List Region.Reg} {j : Nat} {t : Topic} (he : ∀ i, i ≠ j → x[i]? = c.tbl[i]?)
    (h : regionTopic j ≠ t) : Agree t { c with tbl := x } c := by
  unfold regionTopic at h
  cases t with
  | region i =>
    intro h7
    by_cases hj : j = 7
    · exact he i (fun e => h7 (e.trans hj))
    · rw [if_neg hj] at h
      exact he i (fun e => h (by rw [e]))
  | config =>
    by_cases hj : j = 7
    · rw [if_pos hj] at h; exact absurd rfl h
    · exact ⟨he 7 (Ne.symm hj), rfl, rfl, rfl, rfl, rfl, rfl⟩
  | dma => exact ⟨rfl, rfl⟩
  | _ => rfl

/-- The calls of the config space write region 7 of the table and the config space only. -/
theorem config_other {c d : Ctx} {t : Topic} (h : Topic.config ≠ t) (ht : ∀ i, i ≠ 7 → d.tbl[i]? = c.tbl[i]?)
    (h1 : d.cnt = c.cnt) (h2 : d.irqCb = c.irqCb) (h3 : d.hasQuiesce = c.hasQuiesce) (h4 : d.hasReset = c.hasReset)
    (h5 : d.dma = c.dma) (h6 : d.dmaCbs = c.dmaCbs) (h7 : d.mig = c.mig) (h8 : d.realized = c.realized) : Agree t d c := by
  cases t with
  | region i => exact ht i
  | config => exact absurd rfl h
  | irqs t => simp only [Agree, h1]
  | irqCb t => simp only [Agree, h2]
  | quiesce => exact h3
  | reset => exact h4
  | dma => exact ⟨h5, h6⟩
  | migration => exact h7
  | ready => exact h8

/-- A call does nothing to the other topics. -/
theorem step_other (k : Call) (c : Ctx) {t : Topic} (hk : k.topic ≠ .ready) (h : k.topic ≠ t) : Agree t (step c k).1 c := by
  cases k with
  | region alloc a =>
    have he : ∀ i, i ≠ a.idx.toNat → (Region.setup alloc c.tbl a).1[i]? = c.tbl[i]? :=
      fun i hi => setup_else alloc c.tbl a hi
    simp only [step, Call.topic] at h ⊢
    generalize Region.setup alloc c.tbl a = x at he ⊢
    obtain ⟨x1, x2⟩ := x
    cases x2 with
    | ok u => exact table_other he h
    | err e => exact table_other he h
    | fault f => exact Agree.refl t c
  | ioeventfd shadow alloc j s =>
    have he : ∀ i, i ≠ j → (Region.createIoeventfd shadow alloc c.tbl j s).1[i]? = c.tbl[i]? :=
      fun i hi => sub_else shadow alloc c.tbl j s hi
    simp only [step, Call.topic] at h ⊢
    generalize Region.createIoeventfd shadow alloc c.tbl j s = x at he ⊢
    obtain ⟨x1, x2⟩ := x
    cases x2 with
    | ok u => exact table_other he h
    | err e => exact table_other he h
    | fault f => exact Agree.refl t c
  | pciInit alloc type hdr =>
    simp only [step, pciInit]
    split; · exact Agree.refl t c
    split; · exact Agree.refl t c
    split; · exact Agree.refl t c
    split; · exact Agree.refl t c
    cases hq : c.tbl[7]? with
    | none => exact Agree.refl t c
    | some r =>
      exact config_other h (fun i hi => List.getElem?_set_ne (Ne.symm hi)) rfl rfl rfl rfl rfl rfl rfl rfl
  | setId v dd sv sd =>
    simp only [step, setId]
    split
    · exact Agree.refl t c
    · exact config_other h (fun _ _ => rfl) rfl rfl rfl rfl rfl rfl rfl rfl
  | setClass b s p =>
    simp only [step, setClass]
    split
    · exact Agree.refl t c
    · exact config_other h (fun _ _ => rfl) rfl rfl rfl rfl rfl rfl rfl rfl
  | capability pos fl data =>
    simp only [step, capability]
    split
    · exact Agree.refl t c
    · exact config_other h (fun _ _ => rfl) rfl rfl rfl rfl rfl rfl rfl rfl
  | store off bytes =>
    simp only [step, store]
    split
    · exact Agree.refl t c
    · exact config_other h (fun _ _ => rfl) rfl rfl rfl rfl rfl rfl rfl rfl
  | nrIrqs i n =>
    simp only [step, Call.topic] at h ⊢
    split
    · exact Agree.refl t c
    · cases t with
      | irqs j => exact if_neg (fun e => h (by rw [e]))
      | region j => exact fun _ => rfl
      | config => exact ⟨rfl, rfl, rfl, rfl, rfl, rfl, rfl⟩
      | dma => exact ⟨rfl, rfl⟩
      | _ => rfl
  | irqStateCb i b =>
    simp only [step, Call.topic] at h ⊢
    split
    · exact Agree.refl t c
    · cases t with
      | irqCb j => exact if_neg (fun e => h (by rw [e]))
      | region j => exact fun _ => rfl
      | config => exact ⟨rfl, rfl, rfl, rfl, rfl, rfl, rfl⟩
      | dma => exact ⟨rfl, rfl⟩
      | _ => rfl
  | quiesceCb b =>
    cases t with
    | quiesce => exact absurd rfl h
    | region j => exact fun _ => rfl
    | config => exact ⟨rfl, rfl, rfl, rfl, rfl, rfl, rfl⟩
    | dma => exact ⟨rfl, rfl⟩
    | _ => rfl
  | resetCb b =>
    cases t with
    | reset => exact absurd rfl h
    | region j => exact fun _ => rfl
    | config => exact ⟨rfl, rfl, rfl, rfl, rfl, rfl, rfl⟩
    | dma => exact ⟨rfl, rfl⟩
    | _ => rfl
  | dma alloc reg unreg =>
    simp only [step]
    have hd : t ≠ .dma := fun e => h (by rw [e]; rfl)
    split
    · cases t with
      | dma => exact absurd rfl hd
      | region j => exact fun _ => rfl
      | config => exact ⟨rfl, rfl, rfl, rfl, rfl, rfl, rfl⟩
      | _ => rfl
    · cases t with
      | dma => exact absurd rfl hd
      | region j => exact fun _ => rfl
      | config => exact ⟨rfl, rfl, rfl, rfl, rfl, rfl, rfl⟩
      | _ => rfl
  | migration alloc v cbs =>
    have hd : t ≠ .migration := fun e => h (by rw [e]; rfl)
    have hm : ∀ m : Bool, Agree t { c with mig := m } c := by
      intro m
      cases t with
      | migration => exact absurd rfl hd
      | region j => exact fun _ => rfl
      | config => exact ⟨rfl, rfl, rfl, rfl, rfl, rfl, rfl⟩
      | dma => exact ⟨rfl, rfl⟩
      | _ => rfl
    simp only [step]
    split; · exact Agree.refl t c
    split; · exact hm _
    split; · exact hm _
    exact hm _
  | realize a b => exact absurd rfl hk

/-! ## Histories -/

/-- `vfu_realize_ctx` is not among the calls. -/
def Building (ks : List Call) : Prop := ∀ k ∈ ks, k.topic ≠ .ready

theorem runCons (c : Ctx) (k : Call) (ks : List Call) (h : (step c k).2.isFault = false) :
    run c (k :: ks) = ((run (step c k).1 ks).1, (step c k).2 :: (run (step c k).1 ks).2) := by
  simp only [run, h, Bool.false_eq_true, if_false]

theorem smooth_cons {c : Ctx} {k : Call} {ks : List Call} :
    Smooth c (k :: ks) ↔ (step c k).2.isFault = false ∧ Smooth (step c k).1 ks := by
  constructor
  · intro h
    have h0 : (step c k).2.isFault = false := by
      by_cases hf : (step c k).2.isFault = true
      · refine h (step c k).2 ?_
        simp only [run, hf, if_true]
        exact List.mem_cons_self
      · simpa using hf
    refine ⟨h0, fun r hr => h r ?_⟩
    rw [runCons c k ks h0]
    exact List.mem_cons_of_mem _ hr
  · rintro ⟨h0, h1⟩ r hr
    rw [runCons c k ks h0] at hr
    rcases List.mem_cons.1 hr with rfl | hr
    · exact h0
    · exact h1 r hr

theorem answers_cons {c : Ctx} {k : Call} {ks : List Call} (t : Topic) (h : (step c k).2.isFault = false) :
    answers t c (k :: ks) = (if k.topic = t then [(step c k).2] else []) ++ answers t (step c k).1 ks := by
  unfold answers
  rw [runCons c k ks h]
  by_cases ht : k.topic = t
  · simp [ht]
  · simp [ht]

/-- What a history does to a topic, the calls of the topic do alone. -/
theorem run_topic (t : Topic) : ∀ (ks : List Call) (c d : Ctx), Building ks → Agree t c d → Smooth c ks →
    Smooth d (about t ks) ∧ Agree t (run c ks).1 (run d (about t ks)).1 ∧ answers t c ks = (run d (about t ks)).2
  | [], c, d, _, ha, _ => ⟨fun _ h => absurd h (by simp [about, run]), ha, rfl⟩
  | k :: ks, c, d, hb, ha, hs => by
    obtain ⟨h0, h1⟩ := smooth_cons.1 hs
    have hk := hb k List.mem_cons_self
    have hb' : Building ks := fun k' h' => hb k' (List.mem_cons_of_mem _ h')
    by_cases ht : k.topic = t
    · subst ht
      obtain ⟨e1, e2⟩ := step_topic k hk ha
      have hf : about k.topic (k :: ks) = k :: about k.topic ks := by simp [about]
      have h0' : (step d k).2.isFault = false := e1 ▸ h0
      obtain ⟨i1, i2, i3⟩ := run_topic k.topic ks _ _ hb' e2 h1
      rw [hf, answers_cons _ h0, runCons c k ks h0, runCons d k _ h0', if_pos rfl]
      refine ⟨smooth_cons.2 ⟨h0', i1⟩, i2, ?_⟩
      rw [i3, e1]; rfl
    · have hf : about t (k :: ks) = about t ks := by simp [about, ht]
      obtain ⟨i1, i2, i3⟩ := run_topic t ks _ d hb' ((step_other k c hk ht).trans ha) h1
      rw [hf, answers_cons _ h0, runCons c k ks h0, if_neg ht]
      exact ⟨i1, i2, i3⟩

/-- If the calls of no topic crash, the history does not. -/
theorem smooth_of_topics : ∀ (ks : List Call) (c : Ctx), Building ks →
    (∀ t, ∃ d, Agree t c d ∧ Smooth d (about t ks)) → Smooth c ks
  | [], _, _, _ => fun _ h => absurd h (by simp [run])
  | k :: ks, c, hb, h => by
    have hk := hb k List.mem_cons_self
    have hb' : Building ks := fun k' h' => hb k' (List.mem_cons_of_mem _ h')
    obtain ⟨d, hd, hs⟩ := h k.topic
    have hf : about k.topic (k :: ks) = k :: about k.topic ks := by simp [about]
    rw [hf] at hs
    obtain ⟨s0, s1⟩ := smooth_cons.1 hs
    obtain ⟨e1, e2⟩ := step_topic k hk hd
    refine smooth_cons.2 ⟨e1 ▸ s0, smooth_of_topics ks _ hb' ?_⟩
    intro t
    by_cases ht : k.topic = t
    · subst ht; exact ⟨_, e2, s1⟩
    · obtain ⟨d', hd', hs'⟩ := h t
      have hf' : about t (k :: ks) = about t ks := by simp [about, ht]
      rw [hf'] at hs'
      exact ⟨d', (step_other k c hk ht).trans hd', hs'⟩

/-! ## Theorems -/

theorem building_of {ks ks' : List Call} (hb : Building ks) (h : ∀ t, about t ks' = about t ks) : Building ks' := by
  intro k hk ht
  have hm : k ∈ about .ready ks' := List.mem_filter.2 ⟨hk, by simp [ht]⟩
  rw [h] at hm
  obtain ⟨h1, h2⟩ := List.mem_filter.1 hm
  exact hb k h1 (by simpa using h2)

/-- C104: two histories of set-up calls with the same calls on every topic, in the same order within the topic, build the
same context, and every call returns the same. If one of them does not crash, neither does the other. -/
theorem C104_order (c : Ctx) {ks ks' : List Call} (hb : Building ks) (hs : Smooth c ks)
    (h : ∀ t, about t ks' = about t ks) :
    Smooth c ks' ∧ (run c ks').1 = (run c ks).1 ∧ ∀ t, answers t c ks' = answers t c ks := by
  have hb' := building_of hb h
  have hs' : Smooth c ks' :=
    smooth_of_topics ks' c hb' (fun t => ⟨c, Agree.refl t c, h t ▸ (run_topic t ks c c hb (Agree.refl t c) hs).1⟩)
  refine ⟨hs', eq_of_agree fun t => ?_, fun t => ?_⟩
  · have h1 := (run_topic t ks c c hb (Agree.refl t c) hs).2.1
    have h2 := (run_topic t ks' c c hb' (Agree.refl t c) hs').2.1
    rw [h t] at h2
    exact h2.trans h1.symm
  · have h1 := (run_topic t ks c c hb (Agree.refl t c) hs).2.2
    have h2 := (run_topic t ks' c c hb' (Agree.refl t c) hs').2.2
    rw [h t] at h2
    exact h2.trans h1.symm

theorem run_smooth : ∀ (ks : List Call) (c : Ctx) (l : List Call), Smooth c ks →
    run c (ks ++ l) = ((run (run c ks).1 l).1, (run c ks).2 ++ (run (run c ks).1 l).2) ∧ (run c ks).2.length = ks.length
  | [], _, _, _ => ⟨rfl, rfl⟩
  | k :: ks, c, l, h => by
    obtain ⟨h0, h1⟩ := smooth_cons.1 h
    obtain ⟨i1, i2⟩ := run_smooth ks (step c k).1 l h1
    rw [List.cons_append, runCons c k _ h0, runCons c k ks h0, i1]
    exact ⟨rfl, by simp [i2]⟩

/-- C104: so whatever follows, `vfu_realize_ctx` first of all, goes the same, and the clients meet the same device. -/
theorem C104_after (c : Ctx) {ks ks' : List Call} (hb : Building ks) (hs : Smooth c ks)
    (h : ∀ t, about t ks' = about t ks) (l : List Call) :
    (run c (ks' ++ l)).1 = (run c (ks ++ l)).1 ∧
      (run c (ks' ++ l)).2.drop ks'.length = (run c (ks ++ l)).2.drop ks.length ∧
      (run c (ks' ++ l)).1.start = (run c (ks ++ l)).1.start := by
  obtain ⟨hs', he, _⟩ := C104_order c hb hs h
  obtain ⟨e1, e2⟩ := run_smooth ks c l hs
  obtain ⟨e1', e2'⟩ := run_smooth ks' c l hs'
  rw [e1, e1', he, ← e2, ← e2', List.drop_left, List.drop_left]
  exact ⟨rfl, rfl, rfl⟩

/-- C104: two neighbouring calls on different topics can be exchanged. -/
theorem C104_swap (c : Ctx) {as bs : List Call} {k k' : Call} (hb : Building (as ++ k :: k' :: bs))
    (hs : Smooth c (as ++ k :: k' :: bs)) (h : k.topic ≠ k'.topic) :
    Smooth c (as ++ k' :: k :: bs) ∧ (run c (as ++ k' :: k :: bs)).1 = (run c (as ++ k :: k' :: bs)).1 := by
  have hf : ∀ t, about t (as ++ k' :: k :: bs) = about t (as ++ k :: k' :: bs) := by
    intro t
    unfold about
    rw [List.filter_append, List.filter_append]
    congr 1
    by_cases h1 : k.topic = t
    · have h2 : k'.topic ≠ t := fun e => h (h1.trans e.symm)
      simp [h1, h2]
    · by_cases h2 : k'.topic = t
      · simp [h1, h2]
      · simp [h1, h2]
  obtain ⟨h1, h2, _⟩ := C104_order c hb hs hf
  exact ⟨h1, h2⟩

/-- C104: the documented set-up does not crash, so all this applies to it. -/
theorem C104_documented {ks ks' : List Call} (hu : UseRun create ks) (hb : Building ks)
    (h : ∀ t, about t ks' = about t ks) :
    Smooth create ks' ∧ (run create ks').1 = (run create ks).1 ∧ ∀ t, answers t create ks' = answers t create ks := by
  refine C104_order create hb (fun r hr => ?_) h
  have h1 := (C69_setup ks hu).2.1 r hr
  cases r with
  | ok n => rfl
  | err e => rfl
  | fault f => exact absurd rfl (h1 f)

/-- C104: within the topic of the config space the order matters. The identity before `vfu_pci_init` is a write through
NULL; and of `vfu_pci_init` and `vfu_setup_region`, the later decides the size of the config space. -/
theorem C104_config :
    (∃ k k' : Call, Smooth create [k, k'] ∧ ¬ Smooth create [k', k]) ∧
    (∃ k k' : Call, Smooth create [k, k'] ∧ Smooth create [k', k] ∧ (run create [k, k']).1.cfgSize = 256 ∧
      (run create [k', k]).1.cfgSize = 4096) := by
  refine ⟨⟨.pciInit true 0 0, .setId 1#16 2#16 3#16 4#16, ?_, ?_⟩,
    ⟨.region true ⟨7, 4096, false, 3, [], none, 0⟩, .pciInit true 0 0, ?_, ?_, ?_, ?_⟩⟩
  · unfold Smooth; decide +kernel
  · unfold Smooth; decide +kernel
  · unfold Smooth; decide +kernel
  · unfold Smooth; decide +kernel
  · decide +kernel
  · decide +kernel

/-- A set-up. -/
def tidy : List Call :=
  [.pciInit true 0 0, .setId 1#16 2#16 3#16 4#16, .setClass 5#8 6#8 7#8, .region true ⟨0, 4096, true, 7, [], none, 0⟩,
   .ioeventfd false true 0 ⟨8, 4, some 3, 0, 0, none, 0⟩, .nrIrqs 0 1, .nrIrqs 2 4, .quiesceCb true, .resetCb true,
   .dma true true true, .migration true 2 true, .nrIrqs 7 1]

/-- The same calls in another order. -/
def untidy : List Call :=
  [.migration true 2 true, .nrIrqs 7 1, .nrIrqs 2 4, .dma true true true, .region true ⟨0, 4096, true, 7, [], none, 0⟩,
   .resetCb true, .pciInit true 0 0, .nrIrqs 0 1, .setId 1#16 2#16 3#16 4#16,
   .ioeventfd false true 0 ⟨8, 4, some 3, 0, 0, none, 0⟩, .quiesceCb true, .setClass 5#8 6#8 7#8]

example : Building tidy ∧ Smooth create tidy ∧ (∀ t, about t untidy = about t tidy) ∧
    answers (.irqs 7) create untidy = [.err EINVAL] ∧ answers .config create untidy = [.ok 0, .ok 0, .ok 0] ∧
    (run create (untidy ++ [.realize true true])).1.realized = true := by
  refine ⟨?_, ?_, ?_, ?_, ?_, ?_⟩
  · unfold Building; decide +kernel
  · unfold Smooth; decide +kernel
  · intro t
    cases t with
    | irqs i =>
      by_cases h0 : i = 0
      · subst h0; rfl
      · by_cases h2 : i = 2
        · subst h2; rfl
        · by_cases h7 : i = 7
          · subst h7; rfl
          · simp [about, tidy, untidy, Call.topic, regionTopic, Ne.symm h0, Ne.symm h2, Ne.symm h7]
    | region i =>
      by_cases h0 : i = 0
      · subst h0; rfl
      · simp [about, tidy, untidy, Call.topic, regionTopic, Ne.symm h0]
    | _ => rfl
  · decide +kernel
  · decide +kernel
  · decide +kernel

end Verif.Setup
