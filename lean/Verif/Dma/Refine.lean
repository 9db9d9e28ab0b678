import Verif.Dma.Inv

/-! # Refinement of the table by a partial function; exact decision of a map request -/

namespace Verif.Dma
open Verif

theorem sameFile_iff (os : OS) (a b : Option Fd) : os.sameFile a b = true ↔ SameFile os a b := by
  unfold OS.sameFile SameFile
  cases a with
  | none => cases b <;> simp
  | some x =>
    cases b with
    | none => simp
    | some y =>
      simp only [Option.some.injEq]
      split
      · simp_all
      · rename_i hne
        have hxy : x ≠ y := by intro h; exact hne h
        cases hx : os.ino x with
        | none => simp [hxy]
        | some i =>
          cases hy : os.ino y with
          | none => simp [hxy]
          | some j =>
            simp only [beq_iff_eq, hxy, false_or, Option.some.injEq]
            constructor
            · intro h; exact ⟨i, rfl, h.symm⟩
            · rintro ⟨k, h1, h2⟩; rw [h1, h2]

theorem SameFile.isSome {os : OS} {a b : Option Fd} (h : SameFile os a b) : a.isSome = b.isSome := by
  cases a <;> cases b <;> simp_all [SameFile]

/-! ## Consistency of the removal asserts -/

theorem pow2_page {os : OS} (h : os.Ok) {fd : Option Fd} {ps : Nat} (hp : pageSizeFor os fd = .ok ps) :
    ∃ k, k ≤ 64 ∧ ps = 2 ^ k := by
  obtain ⟨k, hk, hpage⟩ := h.page
  unfold pageSizeFor at hp
  split at hp
  · cases hp; exact ⟨k, by omega, by rw [hpage]; exact Nat.max_eq_right (Nat.zero_le _)⟩
  · split at hp
    · cases hp
    · rename_i b hb
      cases hp
      obtain ⟨k', hk', hb'⟩ := h.blk _ _ hb
      rcases Nat.le_total b os.page with hle | hle
      · exact ⟨k, by omega, by rw [Nat.max_eq_right hle, hpage]⟩
      · exact ⟨k', by omega, by rw [Nat.max_eq_left hle, hb']⟩

theorem sub_roundDown_lt {x k : Nat} (hx : x < U64) (hk : k ≤ 64) :
    x - roundDown x (2 ^ k) < 2 ^ k := by
  rw [roundDown_pow2 hx hk]
  have h1 := Nat.div_add_mod x (2 ^ k)
  have h2 := Nat.mod_lt x (Nat.two_pow_pos k)
  rw [Nat.mul_comm] at h1
  omega

theorem roundUp_ge {x k : Nat} (hk : k ≤ 64) (h : 0 < roundUp x (2 ^ k)) :
    2 ^ k ≤ roundUp x (2 ^ k) := by
  unfold roundUp at *
  rw [roundDown_pow2_mod _ hk] at *
  generalize (x + 2 ^ k - 1) % U64 / 2 ^ k = m at *
  cases m with
  | zero => simp at h
  | succ m => rw [Nat.succ_mul]; omega

/-- Facts about the mapping of a new file-backed region. -/
theorem NewRegion.mapping {os c addr size fd offset prot r} (h : NewRegion os c addr size fd offset prot r)
    (hos : os.Ok) (hoff : offset < U64) {x : Fd} (hfd : fd = some x) :
    ∃ k, k ≤ 64 ∧ r.info.pageSize = 2 ^ k ∧ 0 < r.info.mapBase ∧
      r.info.mapBase + r.info.mapLen ≤ U64 ∧
      r.info.mapLen = (size + 2 ^ k - 1) % U64 / 2 ^ k * 2 ^ k ∧ 2 ^ k ≤ r.info.mapLen ∧
      r.info.vaddr = r.info.mapBase + offset % 2 ^ k ∧ 0 < r.info.mapLen := by
  obtain ⟨ps, hps, h1, h2, h3, h4⟩ := h.mapped x hfd
  obtain ⟨k, hk, rfl⟩ := pow2_page hos hps
  obtain ⟨m1, m2, m3, _⟩ := hos.mmap _ _ _ h3
  have hge := roundUp_ge hk m1
  have hlt := sub_roundDown_lt hoff hk
  have hsub : offset - roundDown offset (2 ^ k) = offset % 2 ^ k := by
    rw [roundDown_pow2 hoff hk]
    have := Nat.div_add_mod offset (2 ^ k)
    rw [Nat.mul_comm] at this
    omega
  refine ⟨k, hk, h1, m2, by rw [h2]; exact m3, ?_, by rw [h2]; exact hge, ?_, by rw [h2]; exact m1⟩
  · rw [h2]; unfold roundUp; rw [roundDown_pow2_mod _ hk]
  · rw [h4, hsub]
    unfold add64
    apply Nat.mod_eq_of_lt
    rw [hsub] at hlt
    omega

theorem NewRegion.consistent {os c addr size fd offset prot r}
    (h : NewRegion os c addr size fd offset prot r) (hos : os.Ok) (hoff : offset < U64) :
    r.Consistent := by
  unfold Region.Consistent
  rw [h.hfd]
  cases hfd : fd with
  | none => simp [h.unmapped hfd]
  | some x =>
    obtain ⟨k, _, _, hb, _, _, _, hv, _⟩ := h.mapping hos hoff hfd
    rw [hv]
    simp
    omega

def ConsG (x : Geom) : Prop := x.1.vaddr ≠ 0 ↔ x.2.1 ≠ none

def KeyG (x y : Geom) : Prop := ¬ (x.1.base = y.1.base ∧ x.1.len = y.1.len)

structure Inv2 (c : Ctl) : Prop where
  cons : ∀ x ∈ c.geoms, ConsG x
  keys : c.geoms.Pairwise KeyG

theorem Inv2.consistent {c : Ctl} (h : Inv2 c) : ∀ r ∈ c.regions, r.Consistent := by
  intro r hr
  exact h.cons r.geom (List.mem_map_of_mem hr)

theorem inv2_step (cfg : Cfg) (c : Ctl) (op : Op) (hc : Inv2 c) (hos : op.OSOk) (hb : op.Bounded) :
    Inv2 (step cfg c op).1 := by
  obtain ⟨h1, h2, h3⟩ := step_geoms cfg c op
  rcases h3 with h3 | ⟨os, q, r, rfl, hg, hs, hl, hfr, hn⟩
  · exact ⟨fun x hx => hc.cons x (h3.subset hx), hc.keys.sublist h3⟩
  · simp only [Op.OSOk] at hos
    simp only [Op.Bounded, MapReq.Bounded] at hb
    refine ⟨?_, ?_⟩
    · rw [hg]
      intro x hx
      simp only [List.mem_append, List.mem_singleton] at hx
      rcases hx with hx | rfl
      · exact hc.cons x hx
      · exact hn.consistent hos hb.2.2.1
    · rw [hg, List.pairwise_append]
      refine ⟨hc.keys, by simp, ?_⟩
      intro x hx y hy
      simp only [List.mem_singleton] at hy
      subst hy
      obtain ⟨s, hs', rfl⟩ := List.mem_map.mp hx
      have := (hfr s hs').1
      simp only [KeyG, Region.geom, hn.hbase, hn.hlen]
      exact this

theorem inv2_create (m s : Nat) : Inv2 (create m s) := by
  constructor <;> simp [create, Ctl.geoms]

theorem inv2_run (cfg : Cfg) (m s : Nat) (ops : List Op) (h : ∀ op ∈ ops, op.OSOk ∧ op.Bounded) :
    Inv2 (run cfg (create m s) ops).1 :=
  run_induction (Q := fun op => op.OSOk ∧ op.Bounded)
    (fun c op hc hq => inv2_step cfg c op hc hq.1 hq.2) ops _ (inv2_create m s) h

/-! ## Refinement -/

theorem Represents.geoms {c c' : Ctl} {t : Tbl} (h : Represents c t) (hg : c'.geoms = c.geoms) :
    Represents c' t := by
  obtain ⟨h1, h2⟩ := h
  refine ⟨?_, ?_⟩
  · intro a s v
    rw [h1]
    have key : ∀ r s' : Region, r.geom = s'.geom →
        (r.info.base = a ∧ r.info.len = s ∧ r.info.prot = v.prot ∧ r.offset = v.offset ∧ r.fd = v.fd →
         s'.info.base = a ∧ s'.info.len = s ∧ s'.info.prot = v.prot ∧ s'.offset = v.offset ∧
         s'.fd = v.fd) := by
      intro r s' he
      simp only [Region.geom, Prod.mk.injEq] at he
      rw [he.1, he.2.1, he.2.2]; exact id
    exact ⟨exists_of_geoms hg.symm key, exists_of_geoms hg key⟩
  · intro i j r s hi hj hb hl
    have gi : c.geoms[i]? = some r.geom := by rw [← hg]; simp [Ctl.geoms, hi]
    have gj : c.geoms[j]? = some s.geom := by rw [← hg]; simp [Ctl.geoms, hj]
    simp only [Ctl.geoms, List.getElem?_map, Option.map_eq_some_iff] at gi gj
    obtain ⟨r', hr', er⟩ := gi
    obtain ⟨s', hs', es⟩ := gj
    simp only [Region.geom, Prod.mk.injEq] at er es
    exact h2 i j r' s' hr' hs' (by rw [er.1, es.1]; exact hb) (by rw [er.1, es.1]; exact hl)

/-- Keys of `c` are pairwise different, pointwise form. -/
theorem keys_inj {c : Ctl} (h : c.geoms.Pairwise KeyG) (i j : Nat) (r s : Region)
    (hi : c.regions[i]? = some r) (hj : c.regions[j]? = some s)
    (hb : r.info.base = s.info.base) (hl : r.info.len = s.info.len) : i = j := by
  have gi : c.geoms[i]? = some r.geom := by simp [Ctl.geoms, hi]
  have gj : c.geoms[j]? = some s.geom := by simp [Ctl.geoms, hj]
  rcases Nat.lt_trichotomy i j with hlt | heq | hlt
  · exact absurd ⟨hb, hl⟩ (getElem?_pairwise h gi gj hlt)
  · exact heq
  · exact absurd ⟨hb.symm, hl.symm⟩ (getElem?_pairwise h gj gi hlt)

theorem mem_unique {c : Ctl} (h : c.geoms.Pairwise KeyG) {r s : Region} (hr : r ∈ c.regions)
    (hs : s ∈ c.regions) (hb : r.info.base = s.info.base) (hl : r.info.len = s.info.len) : r = s := by
  obtain ⟨i, hi⟩ := List.getElem?_of_mem hr
  obtain ⟨j, hj⟩ := List.getElem?_of_mem hs
  have := keys_inj h i j r s hi hj hb hl
  subst this
  rw [hi] at hj; cases hj; rfl

theorem represents_step (cfg : Cfg) (c : Ctl) (t : Tbl) (op : Op) (hr : Represents c t) (hi : Inv2 c)
    (hi' : Inv2 (step cfg c op).1) :
    ∃ t', TblStep t op (step cfg c op).2.1 t' ∧ Represents (step cfg c op).1 t' := by
  cases op with
  | map os q =>
    simp only [step] at *
    have h := handleMap_case os cfg.hasReg c q
    generalize handleMap os cfg.hasReg c q = o at h hi'
    cases h with
    | flags e _ _ => exact ⟨t, .mapFail _ _ _ _ _, hr⟩
    | fail e ev _ _ _ => exact ⟨t, .mapFail _ _ _ _ _, hr⟩
    | again idx r _ h1 h2 h3 h4 h5 h6 _ =>
      have hmem : r ∈ c.regions := List.mem_of_getElem? h1
      refine ⟨t, .mapAgain _ _ _ _ ⟨r.info.prot, r.offset, r.fd⟩ ?_ h4 h6 ?_, hr⟩
      · exact (hr.1 _ _ _).mpr ⟨r, hmem, h2, h3, rfl, rfl, rfl⟩
      · exact ((sameFile_iff _ _ _).mp h5).isSome
    | new r h1 h2 h3 h4 h5 _ =>
      refine ⟨t.insert q.addr q.size q.attr, .mapNew _ _ _ _ ?_, ?_, ?_⟩
      · cases ht : t q.addr q.size with
        | none => rfl
        | some v =>
          obtain ⟨s, hs, hb, hl, _⟩ := (hr.1 _ _ _).mp ht
          exact absurd ⟨hb, hl⟩ (h4 s hs).1
      · intro a s v
        unfold Tbl.insert
        simp only [List.mem_append, List.mem_singleton]
        split
        · rename_i hk
          obtain ⟨rfl, rfl⟩ := hk
          constructor
          · intro hv; cases hv
            exact ⟨r, .inr rfl, h5.hbase, h5.hlen, h5.hprot, h5.hoffset, h5.hfd⟩
          · rintro ⟨s', hs' | rfl, hb, hl, hp, ho, hf⟩
            · exact absurd ⟨hb, hl⟩ (h4 s' hs').1
            · rw [h5.hprot] at hp; rw [h5.hoffset] at ho; rw [h5.hfd] at hf
              cases v; simp only at hp ho hf; rw [← hp, ← ho, ← hf]; rfl
        · rename_i hk
          rw [hr.1]
          constructor
          · rintro ⟨s', hs', h⟩; exact ⟨s', .inl hs', h⟩
          · rintro ⟨s', hs' | rfl, hb, hl, h⟩
            · exact ⟨s', hs', hb, hl, h⟩
            · exact absurd ⟨by rw [← hb, h5.hbase], by rw [← hl, h5.hlen]⟩ hk
      · exact keys_inj hi'.keys
  | unmap m a s k =>
    simp only [step] at *
    have h := handleUnmap_case m cfg.hasUnreg c a s k
    generalize handleUnmap m cfg.hasUnreg c a s k = o at h hi'
    cases h with
    | removed c1 l1 l2 r b hk hg hm hs hd e1 e2 e3 e4 e5 =>
      have hr1 := hr.geoms hg
      have hmem : r ∈ c1.regions := by rw [e1]; simp
      refine ⟨t.delete a s, .unmapOk _ _ _ _ _ _ hk ?_, ?_, keys_inj hi'.keys⟩
      · rw [(hr1.1 a s ⟨r.info.prot, r.offset, r.fd⟩).mpr ⟨r, hmem, e2, e3, rfl, rfl, rfl⟩]; rfl
      · intro a' s' v
        have hkeys : c1.geoms.Pairwise KeyG := by rw [hg]; exact hi.keys
        have hk1 : ∀ x ∈ l1 ++ l2, ¬ (x.info.base = r.info.base ∧ x.info.len = r.info.len) := by
          intro x hx ⟨hb, hl⟩
          rw [Ctl.geoms, e1, List.map_append, List.map_cons] at hkeys
          rw [List.pairwise_append] at hkeys
          obtain ⟨_, hk2, hk3⟩ := hkeys
          rw [List.pairwise_cons] at hk2
          rcases List.mem_append.mp hx with hx | hx
          · exact hk3 x.geom (List.mem_map_of_mem hx) r.geom (by simp) ⟨hb, hl⟩
          · exact hk2.1 x.geom (List.mem_map_of_mem hx) ⟨hb.symm, hl.symm⟩
        unfold Tbl.delete
        split
        · rename_i hkk
          obtain ⟨rfl, rfl⟩ := hkk
          simp only [reduceCtorEq, false_iff]
          rintro ⟨x, hx, hb, hl, _⟩
          exact hk1 x hx ⟨by rw [hb, e2], by rw [hl, e3]⟩
        · rename_i hkk
          rw [hr1.1]
          rw [e1]
          constructor
          · rintro ⟨x, hx, hb, hl, h⟩
            simp only [List.mem_append, List.mem_cons] at hx
            refine ⟨x, ?_, hb, hl, h⟩
            simp only [List.mem_append]
            rcases hx with hx | rfl | hx
            · exact .inl hx
            · exact absurd ⟨by rw [← hb, e2], by rw [← hl, e3]⟩ hkk
            · exact .inr hx
          · rintro ⟨x, hx, h⟩
            refine ⟨x, ?_, h⟩
            simp only [List.mem_append] at hx
            simp only [List.mem_append, List.mem_cons]
            rcases hx with hx | hx
            · exact .inl hx
            · exact .inr (.inr hx)
    | cleared hk =>
      subst hk
      refine ⟨Tbl.empty, .unmapAll _ _ _ _ _, ?_, ?_⟩
      · intro a s v; simp [Tbl.empty]
      · intro i j r s h1; simp at h1
    | enoent c1 _ hg _ _ _ _ => exact ⟨t, .unmapFail _ _ _ _ _ _, hr.geoms hg⟩
    | nomem => exact ⟨t, .unmapFail _ _ _ _ _ _, hr⟩
    | dirtyFail c1 pg bs buf hint o hk ho hg _ _ _ =>
      cases o with
      | ok b => exact absurd rfl (ho b)
      | okEmpty => exact ⟨t, .unmapEmpty _ _ _ _ _, hr.geoms hg⟩
      | err e => exact ⟨t, .unmapFail _ _ _ _ _ _, hr.geoms hg⟩
      | fault f => subst hk; exact ⟨t, .unmapGetFault _ _ _ _ _ _ _ _ _, hr.geoms hg⟩
    | assert c1 f hn =>
      obtain ⟨r, hr', hnc⟩ := hn
      exact absurd (hi.consistent r hr') hnc
  | logStart ca p =>
    exact ⟨t, .logStart _ _ _ _ (loggingStart_nofault ca c p), hr.geoms (loggingStart_geom ca c p).1⟩
  | logStop => exact ⟨t, .logStop _ _, hr.geoms (loggingStop_geom c).1⟩
  | query hint a l p s b =>
    exact ⟨t, .query _ _ _ _ _ _ _ _, hr.geoms (dirtyPageGet_geom c hint a l p s b).1⟩
  | mark sgl =>
    simp only [step]
    cases h : sglMark c sgl with
    | ok c' => exact ⟨t, .mark _ _ _, hr.geoms (sglMark_geom h).1⟩
    | err e => exact ⟨t, .mark _ _ _, hr⟩
    | fault f => exact ⟨t, .mark _ _ _, hr⟩

theorem represents_run (cfg : Cfg) (ops : List Op) (c : Ctl) (t : Tbl) (hr : Represents c t)
    (hi : Inv2 c) (h : ∀ op ∈ ops, op.OSOk ∧ op.Bounded) :
    ∃ t', TblRun t (runReplies cfg c ops) t' ∧ Represents (run cfg c ops).1 t' := by
  induction ops generalizing c t with
  | nil => exact ⟨t, .nil t, hr⟩
  | cons op ops ih =>
    simp only [List.mem_cons, forall_eq_or_imp] at h
    have hi' := inv2_step cfg c op hi h.1.1 h.1.2
    obtain ⟨t1, hs, hr1⟩ := represents_step cfg c t op hr hi hi'
    obtain ⟨t2, hs2, hr2⟩ := ih _ t1 hr1 hi' h.2
    exact ⟨t2, .cons _ _ _ _ _ _ hs hs2, hr2⟩

/-! ## Exact decision -/

theorem sep_not_overlap {c : Ctl} (h : Inv c) {r s : Region} {i j : Nat} (hi : c.regions[i]? = some r)
    (hj : c.regions[j]? = some s) (hij : i < j) : ¬ Clash s.info.base s.info.len r := by
  have gi : c.geoms[i]? = some r.geom := by simp [Ctl.geoms, hi]
  have gj : c.geoms[j]? = some s.geom := by simp [Ctl.geoms, hj]
  have hs := getElem?_pairwise h.sep gi gj hij
  have w1 := h.nowrap _ (List.mem_of_getElem? gi)
  have w2 := h.nowrap _ (List.mem_of_getElem? gj)
  simp only [SepG, Region.geom] at hs w1 w2
  rw [clash_iff w1 w2]
  omega

end Verif.Dma
