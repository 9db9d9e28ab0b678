import Verif.Dma.Query
import Mathlib.Data.List.Induction

/-!
# C11, C12: marking pages dirty and reading them back

Specification: `Touches` (a page contains a byte of a range), `Writes`, `DirtyPage`, `Since`.
-/

namespace Verif.Dma
open Verif

/-! ## C11 -/

/-- C11: in every reachable table with logging on at a power-of-two page size, reporting a list of
entries that lie in file-backed regions always works, and afterwards a page is dirty exactly if it was
before or one of the written entries touches it; geometry and page size stay. -/
theorem C11_mark (cfg : Cfg) (m s : Nat) (ops : List Op) (hs : s ≤ 2 ^ 62) (k : Nat)
    (hk : (run cfg (create m s) ops).1.dirtyPgsize = 2 ^ k) (sgl : List Sg)
    (hv : ∀ sg ∈ sgl, ValidSg (run cfg (create m s) ops).1 sg) :
    ∃ c', sglMark (run cfg (create m s) ops).1 sgl = .ok c' ∧
      c'.geoms = (run cfg (create m s) ops).1.geoms ∧
      c'.dirtyPgsize = (run cfg (create m s) ops).1.dirtyPgsize ∧
      ∀ i p, DirtyPage c' i p ↔ DirtyPage (run cfg (create m s) ops).1 i p ∨
        ∃ sg ∈ sgl, sg.writeable = true ∧ sg.region = i ∧ Touches (2 ^ k) sg.offset sg.length p := by
  obtain ⟨c', h1, h2, h3, _, h4⟩ := sglMark_spec sgl _ hk (logInv_run cfg m s ops) (small_run cfg m s ops hs) hv
  exact ⟨c', h1, h2, h3, h4⟩

/-- With logging off nothing is recorded and nothing fails. -/
theorem C11_off (c : Ctl) (h : c.dirtyPgsize = 0) (sgl : List Sg) : sglMark c sgl = .ok c := by
  induction sgl with
  | nil => rfl
  | cons sg sgl ih =>
    simp only [sglMark, h]
    split
    · rfl
    · simpa using ih

/-- Two file-backed regions of 12 and 4 pages, logging with 4 KiB pages. -/
def hist5 : List Op := [mapFd 0x10000 0xc000 0 4, mapFd 0x40000 0x4000 0 6, .logStart (fun _ => true) 0x1000]

example : (run cfg0 (create 64 0x100000) hist5).1.dirtyPgsize = 2 ^ 12 ∧
    (∀ sg ∈ [(⟨0x10000, 0, 0x1001, 0x6fff, true⟩ : Sg), ⟨0x40000, 1, 0x10, 0x3000, true⟩],
      ValidSg (run cfg0 (create 64 0x100000) hist5).1 sg) ∧
    (∃ c', sglMark (run cfg0 (create 64 0x100000) hist5).1
        [⟨0x10000, 0, 0x1002, 0x6fff, true⟩, ⟨0x40000, 1, 0x10, 0x3000, true⟩] = .ok c' ∧
      c'.regions.map (fun r => r.dirty.map (·.take 2)) = [some [0xc0#8, 0x01#8], some [0x08#8, 0#8]]) := by
  refine ⟨by decide, ?_, _, rfl, by decide⟩
  intro sg hsg
  simp only [List.mem_cons, List.not_mem_nil, or_false] at hsg
  have h0 : ((run cfg0 (create 64 0x100000) hist5).1.regions[0]?).map (fun r => (r.fd, r.info.len)) = some (some 4, 0xc000) := by
    decide
  have h1 : ((run cfg0 (create 64 0x100000) hist5).1.regions[1]?).map (fun r => (r.fd, r.info.len)) = some (some 6, 0x4000) := by
    decide
  obtain ⟨r0, e0, e0'⟩ := Option.map_eq_some_iff.mp h0
  obtain ⟨r1, e1, e1'⟩ := Option.map_eq_some_iff.mp h1
  simp only [Prod.mk.injEq] at e0' e1'
  rcases hsg with rfl | rfl
  · exact ⟨r0, e0, by rw [e0'.1]; simp, by decide, by rw [e0'.2]; decide⟩
  · exact ⟨r1, e1, by rw [e1'.1]; simp, by decide, by rw [e1'.2]; decide⟩

/-- The page size of logging is not checked: with 12 KiB pages the rounding macro loses the page. -/
theorem C11_violated :
    let c := (run cfg0 (create 64 0x100000) [mapFd 0x10000 0xc000 0 4, .logStart (fun _ => true) 0x3000]).1
    let sg : Sg := ⟨0x10000, 0, 1, 0, true⟩
    c.dirtyPgsize = 0x3000 ∧ Touches 0x3000 sg.offset sg.length 0 ∧
    ∃ c', sglMark c [sg] = .ok c' ∧ ¬ DirtyPage c' 0 0 := by
  refine ⟨by decide, ⟨0, by decide⟩, _, rfl, ?_⟩
  rintro ⟨r, bm, h1, h2, h3⟩
  revert h3
  have e : (some (some (0#8 : Byte))) =
      ((run cfg0 (create 64 0x100000) [mapFd 0x10000 0xc000 0 4, .logStart (fun _ => true) 0x3000]).1.regions[0]?).bind
        (fun r => r.dirty.map (fun b => b[0]?)) := by decide
  have e2 : (some (some (0#8 : Byte))) = (some r).bind (fun r => r.dirty.map (fun b => b[0]?)) := by
    rw [← h1]; decide
  rw [Option.bind_some, h2] at e2
  simp only [Option.map_some, Option.some.injEq] at e2
  rw [bit_getElem? e2.symm rfl]
  decide

/-- A region without a file descriptor has no bitmap: reporting an entry in it as written while logging is on
aborts the server. -/
theorem C11_abort :
    sglMark (run cfg0 (create 64 0x100000) [mapAt 0x10000 0x1000, .logStart (fun _ => true) 0x1000]).1
      [⟨0x10000, 0, 16, 0, true⟩] = .fault .assertFail := by decide

/-! ## C12 -/

theorem good_of {c c' : Ctl} (h : Good c) (hg : c'.geoms = c.geoms) (hm : c'.maxRegions = c.maxRegions)
    (hms : c'.maxSize = c.maxSize) (hl : LogInv c') : Good c' := by
  have hlen : c'.regions.length = c.regions.length := by
    have := congrArg List.length hg
    simpa [Ctl.geoms] using this
  refine ⟨⟨by rw [hg]; exact h.inv.sep, by rw [hg]; exact h.inv.nowrap, by rw [hlen, hm]; exact h.inv.count,
    by rw [hg, hms]; exact h.inv.size⟩, hl, ?_, ?_⟩
  · apply forall_of_geoms hg.symm (P := fun r => r.info.len ≤ 2 ^ 62) ?_ h.small
    intro r s he hr
    simp only [Region.geom, Prod.mk.injEq] at he
    rw [← he.1]; exact hr
  · apply forall_of_geoms hg.symm (P := Region.Fits) ?_ h.fits
    intro r s he hr
    simp only [Region.geom, Prod.mk.injEq] at he
    unfold Region.Fits at *
    rw [← he.1]; exact hr

/-- One query at the logging page size. -/
theorem query_same {c : Ctl} (hg : Good c) {k hint i : Nat} {r : Region} {buf : List Byte}
    (hk : c.dirtyPgsize = 2 ^ k) (hh : hint < c.maxRegions) (hr : c.regions[i]? = some r) (hfd : r.fd ≠ none)
    (hb : getBitmapSize r.info.len (2 ^ k) = .ok buf.length) :
    ∃ c' out, dirtyPageGet c hint r.info.base r.info.len (2 ^ k) buf.length buf = (c', .done out) ∧
      c'.geoms = c.geoms ∧ c'.dirtyPgsize = c.dirtyPgsize ∧ c'.maxRegions = c.maxRegions ∧
      c'.maxSize = c.maxSize ∧ out.length = buf.length ∧
      (∀ p, bit out p = true ↔ DirtyPage c i p) ∧
      ∀ j p, DirtyPage c' j p ↔ j ≠ i ∧ DirtyPage c j p := by
  have hmem := List.mem_of_getElem? hr
  have hpos := Nat.two_pow_pos k
  obtain ⟨srv, hd, hsb⟩ := (hg.log r hmem).2.2 (by omega) hfd
  obtain ⟨_, hle, _⟩ := bitmapSize_inv hb (hg.small r hmem)
  have hsl : srv.length = buf.length := by
    rw [hk, hb] at hsb; injection hsb with hsb; exact hsb.symm
  obtain ⟨srv', out, e1, e2, e3⟩ := getSame_spec buf.length 0 srv buf (by omega) (by omega)
  have hred := query_reduce (buf := buf) hg hh hr (by omega) (Nat.le_refl _) (by omega)
    ((badClientPg_iff _).mpr ⟨k, rfl⟩) hsb hb hfd hd
  have hgb : getBits c.dirtyPgsize (2 ^ k) srv.length buf.length srv buf = .ok (srv', out) := by
    unfold getBits
    rw [if_pos hk.symm, e1]
  rw [hgb] at hred
  simp only at hred
  have hdp : ∀ p, DirtyPage c i p ↔ bit srv p = true := by
    intro p
    constructor
    · rintro ⟨r1, b1, h1, h2, h3⟩
      rw [hr] at h1; cases h1
      rw [hd] at h2; cases h2
      exact h3
    · intro h; exact ⟨r, srv, hr, hd, h⟩
  have hrange : ∀ p, bit srv p = true → 0 ≤ p / 8 ∧ p / 8 < 0 + buf.length := by
    intro p hp
    refine ⟨Nat.zero_le _, ?_⟩
    apply Classical.byContradiction
    intro hc
    rw [bit_ge (by omega)] at hp
    cases hp
  have hol := (getBits_len hgb).2
  refine ⟨_, out, hred, map_geom_set hr rfl, rfl, rfl, rfl, hol, fun p => ?_, fun j p => ?_⟩
  · rw [hdp, e2]
    by_cases hc : 0 ≤ p / 8 ∧ p / 8 < 0 + buf.length
    · rw [if_pos hc]
    · rw [if_neg hc, bit_ge (bm := buf) (by omega)]
      constructor
      · intro h; cases h
      · intro h; exact absurd (hrange p h) hc
  · rw [dirtyPage_set hr]
    by_cases hj : j = i
    · subst hj
      simp only [if_true, ne_eq, not_true_eq_false, false_and, iff_false, e3]
      intro h
      simp only [Bool.and_eq_true, Bool.not_eq_true', decide_eq_false_iff_not] at h
      exact h.2 (hrange p h.1)
    · simp [hj]

/-- A query for the whole of region `i` at page size `pg`, with a buffer of the right size. -/
def WholeQuery (c : Ctl) (pg i : Nat) (op : Op) : Prop :=
  ∃ r hint buf, c.regions[i]? = some r ∧ r.fd ≠ none ∧ hint < c.maxRegions ∧
    getBitmapSize r.info.len pg = .ok buf.length ∧
    op = .query hint r.info.base r.info.len pg buf.length buf

/-- Marks of valid entries and whole-region queries. -/
def Act (c : Ctl) (pg : Nat) (op : Op) : Prop :=
  (∃ sgl, op = .mark sgl ∧ ∀ sg ∈ sgl, ValidSg c sg) ∨ ∃ i, WholeQuery c pg i op

/-- Page `p` of region `i` was written by a mark in `acts` after which region `i` was not queried; or it was dirty
at the beginning and region `i` was not queried at all. -/
def Since (c : Ctl) (pg : Nat) (acts : List Op) (i p : Nat) : Prop :=
  (∃ a sgl b, acts = a ++ .mark sgl :: b ∧ (∃ sg ∈ sgl, Writes pg sg i p) ∧ ∀ op ∈ b, ¬ WholeQuery c pg i op) ∨
  (DirtyPage c i p ∧ ∀ op ∈ acts, ¬ WholeQuery c pg i op)

theorem run_snoc (cfg : Cfg) (c : Ctl) (ops : List Op) (op : Op) :
    (run cfg c (ops ++ [op])).1 = (step cfg (run cfg c ops).1 op).1 := by
  induction ops generalizing c with
  | nil => rfl
  | cons o ops ih => exact ih _

theorem getElem_of_geoms {c c' : Ctl} (h : c'.geoms = c.geoms) {i : Nat} {r : Region} (hr : c.regions[i]? = some r) :
    ∃ r', c'.regions[i]? = some r' ∧ r'.geom = r.geom := by
  have : c'.geoms[i]? = some r.geom := by rw [h]; simp [Ctl.geoms, hr]
  simp only [Ctl.geoms, List.getElem?_map, Option.map_eq_some_iff] at this
  exact this

theorem wholeQuery_geoms {c c' : Ctl} (h : c'.geoms = c.geoms) (hm : c'.maxRegions = c.maxRegions) {pg i op}
    (hq : WholeQuery c pg i op) : WholeQuery c' pg i op := by
  obtain ⟨r, hint, buf, h1, h2, h3, h4, rfl⟩ := hq
  obtain ⟨r', g1, g2⟩ := getElem_of_geoms h h1
  simp only [Region.geom, Prod.mk.injEq] at g2
  refine ⟨r', hint, buf, g1, by rw [g2.2.1]; exact h2, by rw [hm]; exact h3, by rw [g2.1]; exact h4, by rw [g2.1]⟩

theorem validSg_geoms {c c' : Ctl} (h : c'.geoms = c.geoms) {sg} (hq : ValidSg c sg) : ValidSg c' sg := by
  obtain ⟨r, h1, h2, h3, h4⟩ := hq
  obtain ⟨r', g1, g2⟩ := getElem_of_geoms h h1
  simp only [Region.geom, Prod.mk.injEq] at g2
  exact ⟨r', g1, by rw [g2.2.1]; exact h2, h3, by rw [g2.1]; exact h4⟩

theorem wholeQuery_unique {c : Ctl} (hg : Good c) {k i j : Nat} {op} (h1 : WholeQuery c (2 ^ k) i op)
    (h2 : WholeQuery c (2 ^ k) j op) : i = j := by
  obtain ⟨r, _, buf, a1, a2, a3, a4, rfl⟩ := h1
  obtain ⟨s, _, _, b1, b2, b3, b4, e⟩ := h2
  simp only [Op.query.injEq] at e
  have hs := (bitmapSize_inv a4 (hg.small r (List.mem_of_getElem? a1)))
  have := Nat.two_pow_pos k
  refine noshare_of_sep hg.inv.sep i j r s r.info.base a1 b1 ⟨Nat.le_refl _, by omega⟩ ⟨by omega, by omega⟩

/-- Over any alternation of marks and whole-region queries the dirty pages are exactly those written since. -/
theorem since_run (cfg : Cfg) (c : Ctl) (hg : Good c) (k : Nat) (hk : c.dirtyPgsize = 2 ^ k) (acts : List Op)
    (ha : ∀ op ∈ acts, Act c (2 ^ k) op) :
    let c' := (run cfg c acts).1
    Good c' ∧ c'.geoms = c.geoms ∧ c'.dirtyPgsize = 2 ^ k ∧ c'.maxRegions = c.maxRegions ∧
      c'.maxSize = c.maxSize ∧ ∀ i p, DirtyPage c' i p ↔ Since c (2 ^ k) acts i p := by
  induction acts using List.reverseRecOn with
  | nil =>
    refine ⟨hg, rfl, hk, rfl, rfl, fun i p => ?_⟩
    simp only [run, Since, List.not_mem_nil, false_implies, implies_true, and_true]
    constructor
    · exact .inr
    · rintro (⟨a, sgl, b, h, _⟩ | h)
      · simp at h
      · exact h
  | append_singleton acts op ih =>
    simp only [List.mem_append, List.mem_singleton] at ha
    obtain ⟨g1, g2, g3, g4, g4', g5⟩ := ih (fun op h => ha op (.inl h))
    simp only [run_snoc]
    generalize (run cfg c acts).1 = c1 at *
    rcases ha op (.inr rfl) with ⟨sgl, rfl, hv⟩ | ⟨i0, hq⟩
    · obtain ⟨c2, e1, e2, e3, e4, e5⟩ := sglMark_spec sgl c1 g3 g1.log g1.small
        (fun sg hsg => validSg_geoms g2 (hv sg hsg))
      have e4' := (sglMark_geom e1).2.2.1
      simp only [step, e1]
      refine ⟨good_of g1 e2 e4 e4' (logInv_mark g1.log e1), by rw [e2, g2], by rw [e3, g3],
        by rw [e4, g4], by rw [e4', g4'], fun i p => ?_⟩
      rw [e5, g5]
      have hnq : ¬ WholeQuery c (2 ^ k) i (.mark sgl) := by
        rintro ⟨_, _, _, _, _, _, _, e⟩; cases e
      constructor
      · rintro ((⟨a, sgl', b, rfl, hw, hb⟩ | ⟨hd, hb⟩) | hw)
        · refine .inl ⟨a, sgl', b ++ [.mark sgl], by simp, hw, ?_⟩
          intro op hop
          rcases List.mem_append.mp hop with hop | hop
          · exact hb op hop
          · rw [List.mem_singleton] at hop; rw [hop]; exact hnq
        · refine .inr ⟨hd, ?_⟩
          intro op hop
          rcases List.mem_append.mp hop with hop | hop
          · exact hb op hop
          · rw [List.mem_singleton] at hop; rw [hop]; exact hnq
        · exact .inl ⟨acts, sgl, [], rfl, hw, by simp⟩
      · rintro (⟨a, sgl', b, hab, hw, hb⟩ | ⟨hd, hb⟩)
        · rcases List.eq_nil_or_concat b with rfl | ⟨b', x, rfl⟩
          · obtain ⟨rfl, h2⟩ := List.append_inj' hab rfl
            simp only [List.cons.injEq, Op.mark.injEq, and_true] at h2
            subst h2
            exact .inr hw
          · have hab' : acts ++ [.mark sgl] = (a ++ .mark sgl' :: b') ++ [x] := by
              rw [hab]; simp
            obtain ⟨rfl, h2⟩ := List.append_inj' hab' rfl
            exact .inl (.inl ⟨a, sgl', b', rfl, hw, fun op hop => hb op (by simp [hop])⟩)
        · exact .inl (.inr ⟨hd, fun op hop => hb op (by simp [hop])⟩)
    · have hq1 := wholeQuery_geoms g2 g4 hq
      obtain ⟨r, hint, buf, q1, q2, q3, q4, rfl⟩ := hq1
      obtain ⟨c2, out, e1, e2, e3, e4, e4', e5, e6, e7⟩ := query_same g1 g3 q3 q1 q2 q4
      have hlog := logInv_query g1.log hint r.info.base r.info.len (2 ^ k) buf.length buf
      simp only [step]
      rw [e1] at hlog ⊢
      refine ⟨good_of g1 e2 e4 e4' hlog, by rw [e2, g2], by rw [e3, g3], by rw [e4, g4], by rw [e4', g4'],
        fun i p => ?_⟩
      rw [e7, g5]
      constructor
      · rintro ⟨hne, ⟨a, sgl', b, rfl, hw, hb⟩ | ⟨hd, hb⟩⟩
        · refine .inl ⟨a, sgl', b ++ [.query hint r.info.base r.info.len (2 ^ k) buf.length buf], by simp, hw, ?_⟩
          intro op hop
          rcases List.mem_append.mp hop with hop | hop
          · exact hb op hop
          · rw [List.mem_singleton] at hop; rw [hop]
            intro hq'; exact hne (wholeQuery_unique hg hq' hq)
        · refine .inr ⟨hd, ?_⟩
          intro op hop
          rcases List.mem_append.mp hop with hop | hop
          · exact hb op hop
          · rw [List.mem_singleton] at hop; rw [hop]
            intro hq'; exact hne (wholeQuery_unique hg hq' hq)
      · rintro (⟨a, sgl', b, hab, hw, hb⟩ | ⟨hd, hb⟩)
        · rcases List.eq_nil_or_concat b with rfl | ⟨b', x, rfl⟩
          · obtain ⟨_, h2⟩ := List.append_inj' hab rfl
            simp at h2
          · have hab' : acts ++ [.query hint r.info.base r.info.len (2 ^ k) buf.length buf] =
                (a ++ .mark sgl' :: b') ++ [x] := by rw [hab]; simp
            obtain ⟨rfl, h2⟩ := List.append_inj' hab' rfl
            simp only [List.cons.injEq, and_true] at h2
            subst h2
            refine ⟨?_, .inl ⟨a, sgl', b', rfl, hw, fun op hop => hb op (by simp [hop])⟩⟩
            rintro rfl
            exact hb _ (by simp) hq
        · refine ⟨?_, .inr ⟨hd, fun op hop => hb op (by simp [hop])⟩⟩
          rintro rfl
          exact hb _ (by simp) hq

/-- C12: from any reachable table with logging on at a power-of-two page size, after any alternation of marks and
whole-region queries, a query of region `i` reports exactly the pages written since the last query of that
region (or dirty before, if there was none), and leaves no page of the region dirty. -/
theorem C12_query (cfg : Cfg) (m s : Nat) (ops : List Op) (hs : s ≤ 2 ^ 62)
    (h : ∀ op ∈ ops, op.Bounded ∧ op.NoWrap) (k : Nat)
    (hk : (run cfg (create m s) ops).1.dirtyPgsize = 2 ^ k) (acts : List Op)
    (ha : ∀ op ∈ acts, Act (run cfg (create m s) ops).1 (2 ^ k) op) (i : Nat) (op : Op)
    (hq : WholeQuery (run cfg (create m s) ops).1 (2 ^ k) i op) :
    let c' := (run cfg (run cfg (create m s) ops).1 acts).1
    ∃ bm, (step cfg c' op).2.1 = .query (.done bm) ∧
      (∀ p, bit bm p = true ↔ Since (run cfg (create m s) ops).1 (2 ^ k) acts i p) ∧
      (∀ p, ¬ DirtyPage (step cfg c' op).1 i p) ∧
      ∀ j p, j ≠ i → (DirtyPage (step cfg c' op).1 j p ↔ DirtyPage c' j p) := by
  obtain ⟨g1, g2, g3, g4, g4', g5⟩ := since_run cfg _ (good_run cfg m s ops hs h) k hk acts ha
  have hq1 := wholeQuery_geoms g2 g4 hq
  obtain ⟨r, hint, buf, q1, q2, q3, q4, rfl⟩ := hq1
  obtain ⟨c2, out, e1, e2, e3, e4, e4', e5, e6, e7⟩ := query_same g1 g3 q3 q1 q2 q4
  simp only [step]
  rw [e1]
  refine ⟨out, rfl, fun p => by rw [e6, g5], fun p => ?_, fun j p hj => ?_⟩
  · simp only; rw [e7]; simp
  · simp only; rw [e7]; simp [hj]

/-- Right after logging was switched on no page is dirty. -/
theorem C12_fresh (cfg : Cfg) (m s : Nat) (ops : List Op) (ca : Nat → Bool) (pg : Nat) (c' : Ctl)
    (hoff : (run cfg (create m s) ops).1.dirtyPgsize = 0)
    (h : loggingStart ca (run cfg (create m s) ops).1 pg = (c', .ok ())) (i p : Nat) : ¬ DirtyPage c' i p := by
  have key : ∀ (rs rs' : List Region) (j : Nat), startLoop ca pg j rs = .ok rs' →
      (∀ r ∈ rs, r.dirty = none) → ∀ r ∈ rs', ∀ bm, r.dirty = some bm → ∀ p, bit bm p = false := by
    intro rs
    induction rs with
    | nil => intro rs' j h _; simp only [startLoop] at h; cases h; simp
    | cons r rs ih =>
      intro rs' j h hn
      simp only [List.mem_cons, forall_eq_or_imp] at hn
      simp only [startLoop] at h
      split at h
      · split at h
        · rename_i rs1 h1
          cases h
          simp only [List.mem_cons, forall_eq_or_imp]
          refine ⟨fun bm hb => ?_, ih _ _ h1 hn.2⟩
          rw [hn.1] at hb; cases hb
        · cases h
        · cases h
      · split at h
        · rename_i r1 hr1
          obtain ⟨n, _, e, _⟩ := startOnRegion_ok hr1
          subst e
          split at h
          · rename_i rs1 h1
            cases h
            simp only [List.mem_cons, forall_eq_or_imp]
            refine ⟨fun bm hb => ?_, ih _ _ h1 hn.2⟩
            cases hb
            exact bit_replicate_zero n
          · cases h
          · cases h
        · cases h
        · cases h
  have hlog := logInv_run cfg m s ops
  unfold loggingStart at h
  rw [hoff] at h
  split at h
  · cases h
  · simp only [gt_iff_lt, Nat.lt_irrefl, if_false] at h
    split at h
    · rename_i rs hrs
      cases h
      rintro ⟨r, bm, h1, h2, h3⟩
      have := key _ _ _ hrs (fun r hr => (hlog r hr).1 hoff) r (List.mem_of_getElem? h1) bm h2 p
      rw [this] at h3; cases h3
    · cases h
    · cases h

/-- Two marks, a query of region 0, another mark, and the query in question. -/
example : ∃ c', (step cfg0 (run cfg0 (run cfg0 (create 64 0x100000) hist5).1
      [.mark [⟨0x10000, 0, 0x1002, 0x6fff, true⟩], .query 0 0x10000 0xc000 0x1000 8 (List.replicate 8 0#8),
       .mark [⟨0x10000, 0, 1, 0x2000, true⟩]]).1
      (.query 3 0x10000 0xc000 0x1000 8 (List.replicate 8 0xff#8))) =
    (c', .query (.done (0x04#8 :: List.replicate 7 0#8)), []) := ⟨_, rfl⟩

end Verif.Dma
