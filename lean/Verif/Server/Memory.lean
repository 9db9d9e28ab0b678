import Verif.Server.Mapping
import Verif.Wire.Faithful
import Verif.Dma.Props3

/-!
# C86: a DMA address means the same memory to the client and to the device

The client gave the device memory: files (mapped by both sides) and memory of its own (reached through DMA_READ and
DMA_WRITE).  A device that translates an address with `vfu_addr_to_sgl` and accesses the entries, through `vfu_sgl_get`
where that works and `vfu_sgl_read`/`vfu_sgl_write` where it does not, reads and writes exactly the bytes the client itself
would, by its own account (C71) of what it has mapped. -/

namespace Verif.Server
open Verif
open Verif.Dma (Fd Tbl Represents Ctl Sg Attr)

namespace Memory

/-! ## The client's view -/

/-- Where a byte lives: in a file the client has a descriptor of, or in memory of the client's own, which it finds by the
DMA address. -/
inductive Loc where
  | file (fd : Fd) (pos : Nat)
  | own (addr : Nat)
  deriving DecidableEq, Repr

/-- The contents of the files and of the client's memory. -/
abbrev World := Loc → Byte

/-- The place of DMA address `a` in the entry `v` that starts at `s` (`docs/vfio-user.rst:607-660`): the file offset
belongs to the first byte. -/
def place (v : Attr) (s a : Nat) : Loc :=
  match v.fd with
  | some f => .file f (v.offset + (a - s))
  | none => .own a

/-- By the client's account `t`, address `a` is the place `l`. -/
def At (t : Tbl) (a : Nat) (l : Loc) : Prop := ∃ s n v, t s n = some v ∧ s ≤ a ∧ a < s + n ∧ l = place v s a

/-- By the client's account, the device may read (write) address `a`. -/
def May (t : Tbl) (write : Bool) (a : Nat) : Prop :=
  ∃ s n v, t s n = some v ∧ s ≤ a ∧ a < s + n ∧ (bif write then v.prot.write else v.prot.read) = true

/-- Writing bytes to places, one after the other. -/
def puts (w : World) : List (Loc × Byte) → World
  | [] => w
  | (l, b) :: r => puts (Function.update w l b) r

/-! ## The device's view -/

/-- The memory of the process: `mmap` with `MAP_SHARED` (`lib/dma.c:234`) of the whole pages around a region makes an
address of the mapping a byte of the file.  `none`: no mapping there, or none with that permission (a signal). -/
def backing (c : Ctl) (write : Bool) (va : Nat) : Option Loc :=
  match c.regions.find? fun r => r.fd.isSome && decide (r.info.mapBase ≤ va) && decide (va < r.info.mapBase + r.info.mapLen) with
  | some r =>
    if (bif write then r.info.prot.write else r.info.prot.read) = true then r.fd.map fun f => .file f (r.filePos va) else none
  | none => none

/-- The places behind some addresses. -/
def places (c : Ctl) (write : Bool) : List Nat → Option (List Loc)
  | [] => some []
  | va :: l =>
    match backing c write va, places c write l with
    | some x, some r => some (x :: r)
    | _, _ => none

/-- The client's own memory, as a client serving DMA_READ and DMA_WRITE (`Wire.serve`) has it. -/
def World.own (w : World) : Nat → Byte := fun a => w (.own a)

def World.withOwn (w : World) (m : Nat → Byte) : World
  | .own a => m a
  | .file f p => w (.file f p)

/-- A device reads the entries `sgl` one after the other: `vfu_sgl_get` (`include/libvfio-user.h:760-786`) and the buffer
if that works, else `vfu_sgl_read`.  `id` is the static `msg_id` of `vfu_dma_transfer`, `max` the negotiated
`max_data_xfer_size`. -/
def readEntries (c : Ctl) (w : World) (snd : Wire.Send) (max : Nat) : Nat → List Sg → Option (List Byte)
  | _, [] => some []
  | id, sg :: sgl =>
    match Dma.sgGet c sg with
    | .ok (va, n) =>
      match places c false (List.range' va n), readEntries c w snd max id sgl with
      | some ls, some r => some (ls.map w ++ r)
      | _, _ => none
    | _ =>
      let x := Wire.dmaRead snd Wire.serve max w.own [] id sg
      match x.res, readEntries c w snd max x.id sgl with
      | .ok (), some r => some (x.data ++ r)
      | _, _ => none

/-- The same for writing; the result is the new contents of all memory. -/
def writeEntries (c : Ctl) (snd : Wire.Send) (max : Nat) : World → Nat → List Sg → List Byte → Option World
  | w, _, [], _ => some w
  | w, id, sg :: sgl, data =>
    match Dma.sgGet c sg with
    | .ok (va, n) =>
      match places c true (List.range' va n) with
      | some ls => writeEntries c snd max (puts w (ls.zip (data.take n))) id sgl (data.drop n)
      | none => none
    | _ =>
      let x := Wire.dmaWrite snd Wire.serve max w.own [] id sg (data.take sg.length)
      match x.res with
      | .ok () => writeEntries c snd max (w.withOwn x.peer) x.id sgl (data.drop sg.length)
      | _ => none

/-- Translating as the documentation of `vfu_addr_to_sgl` (`include/libvfio-user.h:735-758`) has it: with one entry, and
once more with as many as it asks for. -/
def entries (c : Ctl) (hint addr len : Nat) (write : Bool) : Option (List Sg) :=
  match Dma.addrToSgl c hint addr len 1 write with
  | (.ok sgl, _) => some sgl
  | (.more n, hint') =>
    match (Dma.addrToSgl c hint' addr len n write).1 with
    | .ok sgl => some sgl
    | _ => none
  | _ => none

/-- The device reads `len` bytes at DMA address `addr`. -/
def devRead (c : Ctl) (w : World) (snd : Wire.Send) (max id hint addr len : Nat) : Option (List Byte) :=
  (entries c hint addr len false).bind (readEntries c w snd max id)

/-- The device writes `data` at DMA address `addr`. -/
def devWrite (c : Ctl) (w : World) (snd : Wire.Send) (max id hint addr : Nat) (data : List Byte) : Option World :=
  (entries c hint addr data.length true).bind fun sgl => writeEntries c snd max w id sgl data

/-- The operating system gave no address to two mappings. -/
def Apart (c : Ctl) : Prop :=
  ∀ r ∈ c.regions, ∀ s ∈ c.regions, r.fd ≠ none → s.fd ≠ none → ∀ va, r.info.mapBase ≤ va → va < r.info.mapBase + r.info.mapLen →
    s.info.mapBase ≤ va → va < s.info.mapBase + s.info.mapLen → r = s

/-- The client's file offsets are multiples of the page size of the file. -/
def Aligned (c : Ctl) : Prop := ∀ r ∈ c.regions, r.fd ≠ none → r.offset % r.info.pageSize = 0

/-! ## Lists -/

theorem puts_append (w : World) (a b : List (Loc × Byte)) : puts w (a ++ b) = puts (puts w a) b := by
  induction a generalizing w with
  | nil => rfl
  | cons x a ih => obtain ⟨l, v⟩ := x; exact ih _

theorem puts_other {w : World} {x : Loc} : ∀ {l : List (Loc × Byte)}, (∀ p ∈ l, p.1 ≠ x) → puts w l x = w x := by
  intro l
  induction l generalizing w with
  | nil => intro _; rfl
  | cons p l ih =>
    obtain ⟨a, b⟩ := p
    intro h
    show puts (Function.update w a b) l x = w x
    rw [ih (fun p hp => h p (List.mem_cons_of_mem _ hp))]
    exact Function.update_of_ne (Ne.symm (h (a, b) (List.mem_cons_self ..))) _ _

theorem puts_same {w : World} : ∀ {ls : List Loc} {d : List Byte}, ls.Nodup → ls.length = d.length →
    ls.map (puts w (ls.zip d)) = d := by
  intro ls
  induction ls generalizing w with
  | nil => intro d _ h; cases d with | nil => rfl | cons _ _ => cases h
  | cons l ls ih =>
    intro d hn h
    cases d with
    | nil => cases h
    | cons b d =>
      obtain ⟨h1, h2⟩ := List.nodup_cons.mp hn
      show puts (Function.update w l b) (ls.zip d) l :: ls.map (puts (Function.update w l b) (ls.zip d)) = b :: d
      rw [ih h2 (Nat.succ.inj h)]
      congr 1
      rw [puts_other]
      · exact Function.update_self ..
      · intro p hp he
        exact h1 (he ▸ (List.of_mem_zip (show (p.1, p.2) ∈ ls.zip d from hp)).1)

theorem withOwn_own (w : World) : w.withOwn w.own = w := by funext l; cases l <;> rfl

theorem own_puts (w : World) (a : Nat) (d : List Byte) :
    w.withOwn (Wire.poke w.own a d) = puts w (((List.range' a d.length).map Loc.own).zip d) := by
  induction d generalizing w a with
  | nil =>
    refine Eq.trans ?_ (withOwn_own w)
    congr 1
    funext i
    simp only [Wire.poke, List.length_nil, Nat.add_zero]
    exact if_neg (by omega)
  | cons b d ih =>
    have h1 : Wire.poke w.own a (b :: d) = Wire.poke (World.own (Function.update w (.own a) b)) (a + 1) d := by
      have := Wire.poke_poke w.own a [b] d
      simp only [List.length_singleton, List.singleton_append] at this
      rw [← this]
      congr 1
      funext i
      simp only [Wire.poke, List.length_singleton, World.own]
      by_cases h : i = a
      · subst h
        rw [if_pos (by omega), Function.update_self]
        simp
      · rw [if_neg (by omega), Function.update_of_ne (by simpa using h)]
    have h2 : w.withOwn (Wire.poke (World.own (Function.update w (.own a) b)) (a + 1) d) =
        World.withOwn (Function.update w (.own a) b) (Wire.poke (World.own (Function.update w (.own a) b)) (a + 1) d) := by
      funext l
      cases l with
      | own x => rfl
      | file f p => exact (Function.update_of_ne (by simp) _ _).symm
    rw [h1, h2, ih]
    rfl

/-! ## One entry -/

/-- What the account says about the entry `sg`, and how the device gets at it. -/
structure Entry (c : Ctl) (t : Tbl) (write : Bool) (sg : Sg) (ls : List Loc) : Prop where
  at_ : List.Forall₂ (At t) (List.range' (sg.dmaAddr + sg.offset) sg.length) ls
  way : (∃ va, Dma.sgGet c sg = .ok (va, sg.length) ∧ places c write (List.range' va sg.length) = some ls) ∨
    ((∃ e, Dma.sgGet c sg = .err e) ∧ ls = (List.range' (sg.dmaAddr + sg.offset) sg.length).map Loc.own)

theorem places_range {c : Ctl} {write : Bool} {r : Dma.Region} (hr : r ∈ c.regions) (hap : Apart c) {f : Fd} (hf : r.fd = some f)
    (hp : (bif write then r.info.prot.write else r.info.prot.read) = true) :
    ∀ {n va : Nat}, r.info.mapBase ≤ va → va + n ≤ r.info.mapBase + r.info.mapLen →
      places c write (List.range' va n) = some ((List.range' va n).map fun v => .file f (r.filePos v)) := by
  intro n
  induction n with
  | zero => intro va _ _; rfl
  | succ n ih =>
    intro va h1 h2
    have hb : backing c write va = some (.file f (r.filePos va)) := by
      unfold backing
      cases hx : c.regions.find? fun r => r.fd.isSome && decide (r.info.mapBase ≤ va) &&
          decide (va < r.info.mapBase + r.info.mapLen) with
      | none =>
        have := List.find?_eq_none.mp hx r hr
        exact absurd (by simp [hf]; omega) this
      | some s =>
        have g1 := List.mem_of_find?_eq_some hx
        have g2 := List.find?_some hx
        simp only [Bool.and_eq_true, decide_eq_true_eq, Option.isSome_iff_ne_none] at g2
        have : r = s := hap r hr s g1 (by rw [hf]; simp) g2.1.1 va h1 (by omega) g2.1.2 g2.2
        subst this
        dsimp only
        rw [if_pos hp, hf]
        rfl
    rw [List.range'_succ]
    show (match backing c write va, places c write (List.range' (va + 1) n) with
      | some x, some r => some (x :: r)
      | _, _ => none) = _
    rw [hb, ih (by omega) (by omega)]
    rfl

theorem forall₂_map {α β : Type} {R : α → β → Prop} {f : α → β} : ∀ {l : List α}, (∀ x ∈ l, R x (f x)) → List.Forall₂ R l (l.map f) := by
  intro l
  induction l with
  | nil => intro _; exact .nil
  | cons a l ih => intro h; exact .cons (h a (List.mem_cons_self ..)) (ih fun x hx => h x (List.mem_cons_of_mem _ hx))

theorem forall₂_unique {α β : Type} {R : α → β → Prop} (hR : ∀ a b b', R a b → R a b' → b = b') :
    ∀ {l : List α} {m m' : List β}, List.Forall₂ R l m → List.Forall₂ R l m' → m = m' := by
  intro l m m' h
  induction h generalizing m' with
  | nil => intro h'; cases h'; rfl
  | cons h1 _ ih => intro h'; cases h' with | cons g1 g2 => rw [hR _ _ _ h1 g1, ih g2]

/-- The table of a conversation, with what the theorems on DMA say about it. -/
structure Ready (cfg : Cfg) (x : Nat × Nat) (t : Tbl) (c : Ctl) : Prop where
  tidy : Tidy cfg x (some c)
  rep : Represents c t
  apart : Apart c
  aligned : Aligned c

theorem Ready.noShare {cfg : Cfg} {x : Nat × Nat} {t : Tbl} {c : Ctl} (h : Ready cfg x t c) : Dma.NoShare c := by
  obtain ⟨dops, g1, g2⟩ := h.tidy
  cases g2
  exact Dma.noshare_of_sep (Dma.inv_run _ _ _ dops (fun op ho => (g1 op ho).2.2)).sep

/-- The one entry of the account at an address belongs to the one region there. -/
theorem Ready.same {cfg : Cfg} {x : Nat × Nat} {t : Tbl} {c : Ctl} (h : Ready cfg x t c) {r : Dma.Region} {a : Nat}
    (hr : r ∈ c.regions) (hc : r.Covers a) {s n : Nat} {v : Attr} (hv : t s n = some v) (h1 : s ≤ a) (h2 : a < s + n) :
    s = r.info.base ∧ n = r.info.len ∧ v.prot = r.info.prot ∧ v.offset = r.offset ∧ v.fd = r.fd := by
  obtain ⟨r', g1, g2, g3, g4, g5, g6⟩ := (h.rep.1 s n v).mp hv
  obtain ⟨i, hi⟩ := List.getElem?_of_mem hr
  obtain ⟨j, hj⟩ := List.getElem?_of_mem g1
  have hc' : r'.Covers a := by unfold Dma.Region.Covers; omega
  have := h.noShare i j r r' a hi hj hc hc'
  subst this
  rw [hi] at hj
  cases hj
  exact ⟨g2.symm, g3.symm, g4.symm, g5.symm, g6.symm⟩

theorem Ready.attr {cfg : Cfg} {x : Nat × Nat} {t : Tbl} {c : Ctl} (h : Ready cfg x t c) {r : Dma.Region} (hr : r ∈ c.regions) :
    t r.info.base r.info.len = some { prot := r.info.prot, offset := r.offset, fd := r.fd } :=
  (h.rep.1 ..).mpr ⟨r, hr, rfl, rfl, rfl, rfl, rfl⟩

/-- C86: an address has at most one place. -/
theorem Ready.unique {cfg : Cfg} {x : Nat × Nat} {t : Tbl} {c : Ctl} (h : Ready cfg x t c) {a : Nat} {l l' : Loc} (h1 : At t a l)
    (h2 : At t a l') : l = l' := by
  obtain ⟨s, n, v, g1, g2, g3, rfl⟩ := h1
  obtain ⟨s', n', v', k1, k2, k3, rfl⟩ := h2
  obtain ⟨r, e1, e2, e3, e4, e5, e6⟩ := (h.rep.1 s n v).mp g1
  have hc : r.Covers a := by unfold Dma.Region.Covers; omega
  obtain ⟨f1, _, _, f4, f5⟩ := h.same e1 hc k1 k2 k3
  unfold place
  rw [f4, f5, e5, e6, f1, e2]

theorem Ready.entry {cfg : Cfg} {x : Nat × Nat} {t : Tbl} {c : Ctl} (h : Ready cfg x t c) {hint addr len max : Nat} {write : Bool}
    (hh : hint < x.1) (hw : addr + len < U64) {sgl : List Sg} (hr : (Dma.addrToSgl c hint addr len max write).1 = .ok sgl)
    (hm : ∀ a, addr ≤ a → a < addr + len → May t write a) :
    Dma.Tiles c write addr len sgl ∧ ∀ sg ∈ sgl, ∃ ls, Entry c t write sg ls := by
  obtain ⟨dops, g1, g2⟩ := h.tidy
  have h' := h
  cases g2
  have htile := (Dma.C04_tiling cfg.dma x.1 x.2 dops (fun op ho => (g1 op ho).2.1) hint addr len max write hh hw sgl hr).1
  refine ⟨htile, fun sg hsg => ?_⟩
  obtain ⟨r, k1, k2, k3, k4⟩ := htile.mem sg hsg
  have hmem := List.mem_of_getElem? k1
  have hcov : ∀ i < sg.length, r.Covers (sg.dmaAddr + sg.offset + i) := by
    intro i hi; unfold Dma.Region.Covers; omega
  have hbytes : ∀ i < sg.length, addr ≤ sg.dmaAddr + sg.offset + i ∧ sg.dmaAddr + sg.offset + i < addr + len := by
    intro i hi
    have : sg.dmaAddr + sg.offset + i ∈ sgl.flatMap Dma.Sg.bytes :=
      List.mem_flatMap.mpr ⟨sg, hsg, List.mem_range'_1.mpr ⟨by omega, by omega⟩⟩
    rw [Dma.C04_bytes htile] at this
    exact List.mem_range'_1.mp this
  have hcon := (Dma.inv2_run cfg.dma x.1 x.2 dops (fun op ho => ⟨(g1 op ho).1, (g1 op ho).2.1⟩)).consistent r hmem
  have hat : ∀ a ∈ List.range' (sg.dmaAddr + sg.offset) sg.length, At t a
      (place { prot := r.info.prot, offset := r.offset, fd := r.fd } r.info.base a) := by
    intro a ha
    obtain ⟨a1, a2⟩ := List.mem_range'_1.mp ha
    exact ⟨_, _, _, h'.attr hmem, by omega, by omega, rfl⟩
  cases hfd : r.fd with
  | none =>
    have hv : r.info.vaddr = 0 := by
      apply Classical.byContradiction
      intro hv
      exact hcon.mp hv hfd
    refine ⟨_, forall₂_map hat, .inr ⟨⟨EFAULT, ?_⟩, ?_⟩⟩
    · unfold Dma.sgGet; rw [k1]; exact if_pos hv
    · apply List.map_congr_left
      intro a _
      simp only [place, hfd]
  | some f =>
    have hv : r.info.vaddr ≠ 0 := hcon.mpr (by rw [hfd]; simp)
    have hget : Dma.sgGet (Dma.run cfg.dma (Dma.create x.1 x.2) dops).1 sg = .ok (add64 r.info.vaddr sg.offset, sg.length) := by
      unfold Dma.sgGet; rw [k1]; exact if_neg hv
    obtain ⟨w1, w2, _, w4⟩ := Dma.C07_window cfg.dma x.1 x.2 dops (fun op ho => ⟨(g1 op ho).1, (g1 op ho).2.1⟩) hint addr len max write
      hh hw sgl hr sg hsg r k1 (.inl (h'.aligned r hmem (by rw [hfd]; simp))) _ _ hget
    have hp : (bif write then r.info.prot.write else r.info.prot.read) = true := by
      obtain ⟨b1, b2⟩ := hbytes 0 k3
      obtain ⟨s, n, v, v1, v2, v3, v4⟩ := hm _ b1 b2
      rw [(h'.same hmem (hcov 0 k3) v1 v2 v3).2.2.1] at v4
      exact v4
    refine ⟨_, forall₂_map hat, .inl ⟨_, hget, ?_⟩⟩
    rw [places_range hmem h'.apart hfd hp w1 w2]
    congr 1
    generalize add64 r.info.vaddr sg.offset = va at w1 w2 w4
    rw [List.range'_eq_map_range, List.range'_eq_map_range, List.map_map, List.map_map]
    apply List.map_congr_left
    intro i _
    simp only [Function.comp, place, hfd]
    congr 1
    unfold Dma.Region.filePos at w4 ⊢
    omega

/-! ## All entries -/

theorem read_all {c : Ctl} {t : Tbl} {write : Bool} {w : World} {snd : Wire.Send} (hs : Wire.Healthy snd) {max : Nat} (hm : 0 < max)
    (hM : max ≤ 1048576) {addr len : Nat} {sgl : List Sg} (ht : Dma.Tiles c write addr len sgl) (hw : addr + len < U64)
    (he : ∀ sg ∈ sgl, ∃ ls, Entry c t false sg ls) (id : Nat) :
    ∃ ls, List.Forall₂ (At t) (List.range' addr len) ls ∧ readEntries c w snd max id sgl = some (ls.map w) := by
  induction ht generalizing id with
  | nil => exact ⟨[], .nil, rfl⟩
  | cons sg sgl r l h1 h2 h3 h4 h5 h6 h7 h8 h9 ih =>
    obtain ⟨ls, e1, e2⟩ := he sg (List.mem_cons_self ..)
    have hsplit : List.range' (r.info.base + sg.offset) l = List.range' (sg.dmaAddr + sg.offset) sg.length ++
        List.range' (r.info.base + sg.offset + sg.length) (l - sg.length) := by
      rw [h2]
      have : l = sg.length + (l - sg.length) := by omega
      conv_lhs => rw [this]
      rw [← List.range'_append_1]
    have ih' := ih (by omega) (fun s hs => he s (List.mem_cons_of_mem _ hs))
    rcases e2 with ⟨va, g1, g2⟩ | ⟨⟨e, g1⟩, g2⟩
    · obtain ⟨ls', f1, f2⟩ := ih' id
      refine ⟨ls ++ ls', hsplit ▸ List.rel_append e1 f1, ?_⟩
      unfold readEntries
      rw [g1]
      dsimp only
      rw [g2, f2]
      simp
    · obtain ⟨ls', f1, f2⟩ := ih' (id + Wire.ceilDiv sg.length max)
      refine ⟨ls ++ ls', hsplit ▸ List.rel_append e1 f1, ?_⟩
      unfold readEntries
      rw [g1]
      dsimp only
      rw [Wire.C52_read snd hs w.own max hm id sg (by omega) (by omega) h3]
      dsimp only
      rw [f2, g2]
      simp only [List.map_append, List.map_map, Option.some.injEq]
      congr 1
      rw [Wire.peek, List.range'_eq_map_range, List.map_map]
      rfl

theorem write_all {c : Ctl} {t : Tbl} {snd : Wire.Send} (hs : Wire.Healthy snd) {max : Nat} (hm : 0 < max)
    (hM : max ≤ 1048576) {addr len : Nat} {sgl : List Sg} (ht : Dma.Tiles c true addr len sgl) (hw : addr + len < U64)
    (he : ∀ sg ∈ sgl, ∃ ls, Entry c t true sg ls) (w : World) (id : Nat) (data : List Byte) (hd : data.length = len) :
    ∃ ls, List.Forall₂ (At t) (List.range' addr len) ls ∧ writeEntries c snd max w id sgl data = some (puts w (ls.zip data)) := by
  induction ht generalizing id w data with
  | nil => exact ⟨[], .nil, rfl⟩
  | cons sg sgl r l h1 h2 h3 h4 h5 h6 h7 h8 h9 ih =>
    obtain ⟨ls, e1, e2⟩ := he sg (List.mem_cons_self ..)
    have hsplit : List.range' (r.info.base + sg.offset) l = List.range' (sg.dmaAddr + sg.offset) sg.length ++
        List.range' (r.info.base + sg.offset + sg.length) (l - sg.length) := by
      rw [h2]
      have : l = sg.length + (l - sg.length) := by omega
      conv_lhs => rw [this]
      rw [← List.range'_append_1]
    have hlen : ls.length = sg.length := by rw [← e1.length_eq, List.length_range']
    have htake : (data.take sg.length).length = sg.length := by rw [List.length_take]; omega
    have hzip : ∀ ls' : List Loc, (ls ++ ls').zip data = ls.zip (data.take sg.length) ++ ls'.zip (data.drop sg.length) := by
      intro ls'
      conv_lhs => rw [← List.take_append_drop sg.length data]
      rw [List.zip_append (by rw [hlen, htake])]
    rcases e2 with ⟨va, g1, g2⟩ | ⟨⟨e, g1⟩, g2⟩
    · obtain ⟨ls', f1, f2⟩ := ih (by omega) (fun s hs => he s (List.mem_cons_of_mem _ hs)) (puts w (ls.zip (data.take sg.length))) id
        (data.drop sg.length) (by rw [List.length_drop]; omega)
      refine ⟨ls ++ ls', hsplit ▸ List.rel_append e1 f1, ?_⟩
      unfold writeEntries
      rw [g1]
      dsimp only
      rw [g2]
      dsimp only
      rw [f2, hzip, puts_append]
    · obtain ⟨ls', f1, f2⟩ := ih (by omega) (fun s hs => he s (List.mem_cons_of_mem _ hs)) (puts w (ls.zip (data.take sg.length)))
        (id + Wire.ceilDiv sg.length max) (data.drop sg.length) (by rw [List.length_drop]; omega)
      refine ⟨ls ++ ls', hsplit ▸ List.rel_append e1 f1, ?_⟩
      unfold writeEntries
      rw [g1]
      dsimp only
      rw [Wire.C52_write snd hs w.own max hm id sg (data.take sg.length) htake h7 (by omega)
        (by have : min sg.length max ≤ 1048576 := by omega
            have : U32 = 4294967296 := rfl
            omega) h3]
      dsimp only
      rw [own_puts, htake, ← g2, f2, hzip, puts_append]

theorem Ready.entries {cfg : Cfg} {x : Nat × Nat} {t : Tbl} {c : Ctl} (h : Ready cfg x t c) {hint addr len : Nat} {write : Bool}
    (hh : hint < x.1) (hw : addr + len < U64) (hm : ∀ a, addr ≤ a → a < addr + len → May t write a) :
    ∃ sgl, entries c hint addr len write = some sgl ∧ Dma.Tiles c write addr len sgl ∧
      ∀ sg ∈ sgl, ∃ ls, Entry c t write sg ls := by
  have h' := h
  obtain ⟨dops, g1, g2⟩ := h.tidy
  cases g2
  have hall : Dma.AllMapped (Dma.run cfg.dma (Dma.create x.1 x.2) dops).1 addr len := by
    intro a a1 a2
    obtain ⟨s, n, v, v1, v2, v3, _⟩ := hm a a1 a2
    obtain ⟨r, e1, e2, e3, _⟩ := (h'.rep.1 s n v).mp v1
    exact ⟨r, e1, by unfold Dma.Region.Covers; omega⟩
  have hro : write = false ∨ ¬ Dma.HasReadOnly (Dma.run cfg.dma (Dma.create x.1 x.2) dops).1 addr len := by
    cases write with
    | false => exact .inl rfl
    | true =>
      refine .inr ?_
      rintro ⟨a, a1, a2, r, r1, r2, r3⟩
      obtain ⟨s, n, v, v1, v2, v3, v4⟩ := hm a a1 a2
      rw [(h'.same r1 r2 v1 v2 v3).2.2.1] at v4
      simp only [cond_true] at v4
      rw [r3] at v4
      cases v4
  obtain ⟨n, hn⟩ := Dma.C05_count cfg.dma x.1 x.2 dops (fun op ho => (g1 op ho).2) addr len hw hall
  unfold Memory.entries
  have h1 := (hn hint 1 write hh).1 hro
  cases ho : Dma.addrToSgl (Dma.run cfg.dma (Dma.create x.1 x.2) dops).1 hint addr len 1 write with
  | mk o hint' =>
    rw [ho] at h1
    dsimp only at h1
    by_cases hle : n ≤ 1
    · obtain ⟨sgl, rfl, _⟩ := h1.1 hle
      exact ⟨sgl, rfl, h'.entry hh hw (by rw [ho]) hm⟩
    · obtain rfl := h1.2 (by omega)
      have hh' := Dma.C06_hint_in_range cfg.dma x.1 x.2 dops hint addr len 1 write hh
      rw [ho] at hh'
      dsimp only at hh'
      obtain ⟨sgl, h3, _⟩ := ((hn hint' n write hh').1 hro).1 (Nat.le_refl _)
      refine ⟨sgl, ?_, h'.entry hh' hw h3 hm⟩
      dsimp only
      rw [h3]

theorem ready {cfg : Cfg} {mig : Bool} {x : Nat × Nat} {pci : Pci.Pci} {ops : List Op} (h : Talk cfg Plain mig x pci ops) {c : Ctl}
    (hc : (run cfg (init cfg mig (some x) pci) ops).1.dma = some c) (h1 : Apart c) (h2 : Aligned c) :
    Ready cfg x (account cfg Tbl.empty (init cfg mig (some x) pci) ops) c := by
  obtain ⟨c', g1, _, g3⟩ := h.replied.ledger
  rw [hc] at g1
  cases g1
  exact ⟨hc ▸ h.tidy, g3, h1, h2⟩

/-! ## The theorems -/

section
variable {cfg : Cfg} {mig : Bool} {x : Nat × Nat} {pci : Pci.Pci} {ops : List Op} (h : Talk cfg Plain mig x pci ops) {c : Ctl}
  (hc : (run cfg (init cfg mig (some x) pci) ops).1.dma = some c) (hap : Apart c)
include h hc hap

/-- C86: reading.  After any conversation, a range the client gave for reading is read as what the client has there. -/
theorem C86_read (hal : Aligned c) {snd : Wire.Send} (hs : Wire.Healthy snd) {max : Nat} (hm : 0 < max) (hM : max ≤ 1048576)
    (w : World) (id : Nat) {hint : Nat} (hh : hint < x.1) {addr len : Nat} (hw : addr + len < U64)
    (hmay : ∀ a, addr ≤ a → a < addr + len → May (account cfg Tbl.empty (init cfg mig (some x) pci) ops) false a) :
    ∃ ls, List.Forall₂ (At (account cfg Tbl.empty (init cfg mig (some x) pci) ops)) (List.range' addr len) ls ∧
      devRead c w snd max id hint addr len = some (ls.map w) := by
  obtain ⟨sgl, e1, e2, e3⟩ := (ready h hc hap hal).entries hh hw hmay
  obtain ⟨ls, f1, f2⟩ := read_all (w := w) hs hm hM e2 hw e3 id
  exact ⟨ls, f1, by unfold devRead; rw [e1]; exact f2⟩

/-- C86: writing.  A range the client gave for writing is written as if the client wrote there. -/
theorem C86_write (hal : Aligned c) {snd : Wire.Send} (hs : Wire.Healthy snd) {max : Nat} (hm : 0 < max) (hM : max ≤ 1048576)
    (w : World) (id : Nat) {hint : Nat} (hh : hint < x.1) {addr : Nat} {data : List Byte} (hw : addr + data.length < U64)
    (hmay : ∀ a, addr ≤ a → a < addr + data.length →
      May (account cfg Tbl.empty (init cfg mig (some x) pci) ops) true a) :
    ∃ ls, List.Forall₂ (At (account cfg Tbl.empty (init cfg mig (some x) pci) ops)) (List.range' addr data.length) ls ∧
      devWrite c w snd max id hint addr data = some (puts w (ls.zip data)) ∧
      (ls.Nodup → ls.map (puts w (ls.zip data)) = data) ∧ ∀ l, l ∉ ls → puts w (ls.zip data) l = w l := by
  obtain ⟨sgl, e1, e2, e3⟩ := (ready h hc hap hal).entries hh hw hmay
  obtain ⟨ls, f1, f2⟩ := write_all hs hm hM e2 hw e3 w id data rfl
  refine ⟨ls, f1, by unfold devWrite; rw [e1]; exact f2, fun hn => puts_same hn ?_, fun l hl => puts_other fun p hp he => ?_⟩
  · rw [← f1.length_eq, List.length_range']
  · exact hl (he ▸ (List.of_mem_zip (show (p.1, p.2) ∈ ls.zip data from hp)).1)

/-- C86: the place of an address is unique. -/
theorem C86_unique (hal : Aligned c) {a : Nat} {l l' : Loc}
    (h1 : At (account cfg Tbl.empty (init cfg mig (some x) pci) ops) a l)
    (h2 : At (account cfg Tbl.empty (init cfg mig (some x) pci) ops) a l') : l = l' :=
  (ready h hc hap hal).unique h1 h2

omit hap in
/-- C86: and a range with an address the client did not give, or did not give for writing, is not translated, whatever the
room for entries. -/
theorem C86_refused (hint : Nat) (hh : hint < x.1) (addr len max : Nat) (hw : addr + len < U64) (write : Bool) (a : Nat) (h1 : addr ≤ a)
    (h2 : a < addr + len) (hn : ∀ s n v, account cfg Tbl.empty (init cfg mig (some x) pci) ops s n = some v → s ≤ a → a < s + n →
      write = true ∧ v.prot.write = false) (sgl : List Sg) : (Dma.addrToSgl c hint addr len max write).1 ≠ .ok sgl := by
  intro hr
  obtain ⟨c', g1, _, g3⟩ := h.replied.ledger
  rw [hc] at g1
  cases g1
  obtain ⟨dops, k1, k2⟩ := h.tidy
  rw [hc] at k2
  cases k2
  have htile := (Dma.C04_tiling cfg.dma x.1 x.2 dops (fun op ho => (k1 op ho).2.1) hint addr len max write hh hw sgl hr).1
  have hmem : a ∈ sgl.flatMap Dma.Sg.bytes := by
    rw [Dma.C04_bytes htile]; exact List.mem_range'_1.mpr ⟨h1, h2⟩
  obtain ⟨sg, m1, m2⟩ := List.mem_flatMap.mp hmem
  have key : ∃ r, (Dma.run cfg.dma (Dma.create x.1 x.2) dops).1.regions[sg.region]? = some r ∧ sg.dmaAddr = r.info.base ∧
      sg.offset + sg.length ≤ r.info.len ∧ (write = true → r.info.prot.write = true) := by
    clear hr hw h1 h2 hmem m2
    induction htile with
    | nil => cases m1
    | cons sg' sgl r l q1 q2 q3 q4 q5 q6 q7 q8 q9 ih =>
      rcases List.mem_cons.mp m1 with rfl | m1
      · exact ⟨r, q1, q2, q5, q8⟩
      · exact ih m1
  obtain ⟨r, q1, q2, q3, q4⟩ := key
  obtain ⟨b1, b2⟩ := List.mem_range'_1.mp m2
  obtain ⟨z1, z2⟩ := hn _ _ _ ((g3.1 _ _ { prot := r.info.prot, offset := r.offset, fd := r.fd }).mpr ⟨r, List.mem_of_getElem? q1, rfl, rfl, rfl, rfl, rfl⟩) (by omega) (by omega)
  have z3 : r.info.prot.write = false := z2
  rw [q4 z1] at z3
  cases z3

end

section
open Demo

/-- Two regions side by side: 2 MiB of a file, and 2 MiB of the client's own memory. -/
def sideBySide : List Op :=
  [.attach (.ok { maxFds := 8, maxXfer := 1048576, pgsize := 4096 }), .run env (req 1 2 0 (mapBody 0x1000000) [5]),
   .run env (req 2 2 0 (mapBody 0x1200000) [])]

theorem sideBySide_talk : Talk cfg Plain true (8, 2 ^ 40) pci sideBySide := by
  refine ⟨irq_ok, table_ok, ?_, ⟨by decide +kernel, by decide +kernel, by decide +kernel, trivial⟩⟩
  have hos : ∀ i, (Op.run env i).OSOk := fun i e' he => by cases he; exact env_ok rfl
  have h1 : Replied (req 1 2 0 (mapBody 0x1000000) [5]) :=
    replied_req _ _ _ _ (by decide) (by decide) (by decide) (by decide) (by decide)
  have h2 : Replied (req 2 2 0 (mapBody 0x1200000) []) :=
    replied_req _ _ _ _ (by decide) (by decide) (by decide) (by decide) (by decide)
  intro op hop
  simp only [sideBySide, List.mem_cons, List.not_mem_nil, or_false] at hop
  rcases hop with rfl | rfl | rfl
  · exact ⟨trivial, (fun e he => by cases he), trivial⟩
  · exact ⟨⟨env_fair, h1.1⟩, hos _, h1, fun h b f he _ => by cases he; decide⟩
  · exact ⟨⟨env_fair, h2.1⟩, hos _, h2, fun h b f he _ => by cases he; decide⟩

def sideFile : Dma.Region :=
  { info := { base := 0x1000000, len := 0x200000, vaddr := 0x7f0000000000, mapBase := 0x7f0000000000,
              mapLen := 0x200000, pageSize := 4096, prot := ⟨true, true⟩ }
    fd := some 5, offset := 0, dirty := none }

def sideOwn : Dma.Region :=
  { info := { base := 0x1200000, len := 0x200000, vaddr := 0, mapBase := 0, mapLen := 0, pageSize := 4096, prot := ⟨true, true⟩ }
    fd := none, offset := 0, dirty := none }

theorem sideBySide_dma : (run cfg (init cfg true (some (8, 2 ^ 40)) pci) sideBySide).1.dma =
    some { maxRegions := 8, maxSize := 2 ^ 40, dirtyPgsize := 0, regions := [sideFile, sideOwn] } := by decide +kernel

theorem side_apart : Apart { maxRegions := 8, maxSize := 2 ^ 40, dirtyPgsize := 0, regions := [sideFile, sideOwn] } := by
  intro r hr s hs h1 h2 va _ _ _ _
  simp only [List.mem_cons, List.not_mem_nil, or_false] at hr hs
  rcases hr with rfl | rfl
  · rcases hs with rfl | rfl
    · rfl
    · exact absurd rfl h2
  · exact absurd rfl h1

theorem side_aligned : Aligned { maxRegions := 8, maxSize := 2 ^ 40, dirtyPgsize := 0, regions := [sideFile, sideOwn] } := by
  intro r hr _
  simp only [List.mem_cons, List.not_mem_nil, or_false] at hr
  rcases hr with rfl | rfl <;> rfl

theorem side_at {a : Nat} (h1 : 0x1000000 ≤ a) (h2 : a < 0x1400000) (b : Bool) :
    May (account cfg Tbl.empty (init cfg true (some (8, 2 ^ 40)) pci) sideBySide) b a ∧
      At (account cfg Tbl.empty (init cfg true (some (8, 2 ^ 40)) pci) sideBySide) a
        (if a < 0x1200000 then .file 5 (a - 0x1000000) else .own a) := by
  have e1 : account cfg Tbl.empty (init cfg true (some (8, 2 ^ 40)) pci) sideBySide 0x1000000 0x200000 =
    some ⟨⟨true, true⟩, 0, some 5⟩ := by decide +kernel
  have e2 : account cfg Tbl.empty (init cfg true (some (8, 2 ^ 40)) pci) sideBySide 0x1200000 0x200000 =
    some ⟨⟨true, true⟩, 0, none⟩ := by decide +kernel
  by_cases h : a < 0x1200000
  · rw [if_pos h]
    exact ⟨⟨_, _, _, e1, h1, by omega, by cases b <;> rfl⟩, _, _, _, e1, h1, by omega, by simp [place]⟩
  · rw [if_neg h]
    exact ⟨⟨_, _, _, e2, by omega, by omega, by cases b <;> rfl⟩, _, _, _, e2, by omega, by omega, rfl⟩

/-- Four bytes over the border: two of the file, two of the client's memory; and written, they are there. -/
example (w : World) :
    devRead { maxRegions := 8, maxSize := 2 ^ 40, dirtyPgsize := 0, regions := [sideFile, sideOwn] } w (fun n => .ok n) 1048576 7 3 0x11ffffe 4 =
      some [w (.file 5 0x1ffffe), w (.file 5 0x1fffff), w (.own 0x1200000), w (.own 0x1200001)] ∧
    ∃ w', devWrite { maxRegions := 8, maxSize := 2 ^ 40, dirtyPgsize := 0, regions := [sideFile, sideOwn] } w (fun n => .ok n) 1048576 7 3
        0x11fffff [1#8, 2#8] = some w' ∧ w' (.file 5 0x1fffff) = 1#8 ∧ w' (.own 0x1200000) = 2#8 ∧
      w' (.file 5 0x1ffffe) = w (.file 5 0x1ffffe) := by
  refine ⟨?_, ?_⟩
  · obtain ⟨ls, h1, h2⟩ := C86_read sideBySide_talk sideBySide_dma side_apart side_aligned (snd := fun n => .ok n) (fun _ => rfl)
      (max := 1048576) (by decide) (by decide) w 7 (hint := 3) (by decide) (addr := 0x11ffffe) (len := 4) (by decide)
      (fun a h1 h2 => (side_at (by omega) (by omega) false).1)
    rw [h2]
    have hu : ls = [.file 5 0x1ffffe, .file 5 0x1fffff, .own 0x1200000, .own 0x1200001] := by
      have key : List.Forall₂ (At (account cfg Tbl.empty (init cfg true (some (8, 2 ^ 40)) pci) sideBySide))
          (List.range' 0x11ffffe 4) [.file 5 0x1ffffe, .file 5 0x1fffff, .own 0x1200000, .own 0x1200001] :=
        .cons (side_at (a := 0x11ffffe) (by decide) (by decide) true).2 (.cons (side_at (a := 0x11fffff) (by decide) (by decide) true).2
          (.cons (side_at (a := 0x1200000) (by decide) (by decide) true).2 (.cons (side_at (a := 0x1200001) (by decide) (by decide) true).2
            .nil)))
      exact forall₂_unique (R := At _) (fun a l l' => C86_unique sideBySide_talk sideBySide_dma side_apart side_aligned) h1 key
    rw [hu]
    rfl
  · obtain ⟨ls, h1, h2, h3, h4⟩ := C86_write sideBySide_talk sideBySide_dma side_apart side_aligned (snd := fun n => .ok n) (fun _ => rfl)
      (max := 1048576) (by decide) (by decide) w 7 (hint := 3) (by decide) (addr := 0x11fffff) (data := [1#8, 2#8]) (by decide)
      (fun a h1 h2 => (side_at (by omega) (by simp at h2; omega) true).1)
    have hu : ls = [.file 5 0x1fffff, .own 0x1200000] := by
      have key : List.Forall₂ (At (account cfg Tbl.empty (init cfg true (some (8, 2 ^ 40)) pci) sideBySide))
          (List.range' 0x11fffff 2) [.file 5 0x1fffff, .own 0x1200000] :=
        .cons (side_at (a := 0x11fffff) (by decide) (by decide) true).2
          (.cons (side_at (a := 0x1200000) (by decide) (by decide) true).2 .nil)
      exact forall₂_unique (R := At _) (fun a l l' => C86_unique sideBySide_talk sideBySide_dma side_apart side_aligned) h1 key
    subst hu
    have h5 := h3 (by decide)
    simp only [List.map_cons, List.map_nil, List.cons.injEq, and_true] at h5
    exact ⟨_, h2, h5.1, h5.2, h4 _ (by decide)⟩

end

end Memory

end Verif.Server
