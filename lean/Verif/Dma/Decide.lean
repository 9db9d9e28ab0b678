import Verif.Dma.Refine

/-! # Exact decision of a map request (for C03) -/

namespace Verif.Dma
open Verif

theorem scan_append {os addr size fd offset prot} (l1 l2 : List Region) (idx : Nat)
    (h : ∀ s ∈ l1, ¬ (s.info.base = addr ∧ s.info.len = size) ∧ ¬ Clash addr size s) :
    scan os addr size fd offset prot idx (l1 ++ l2) =
      scan os addr size fd offset prot (idx + l1.length) l2 := by
  induction l1 generalizing idx with
  | nil => rfl
  | cons r l1 ih =>
    simp only [List.mem_cons, forall_eq_or_imp] at h
    have hc := h.1.2
    unfold Clash at hc
    simp only [List.cons_append, scan, h.1.1, if_false, hc, ih (idx + 1) h.2, List.length_cons]
    congr 1
    omega

theorem scan_exact {os addr size fd offset prot} {c : Ctl} (hi : Inv c) (hk : c.geoms.Pairwise KeyG)
    {r : Region} (hr : r ∈ c.regions) (hb : r.info.base = addr) (hl : r.info.len = size) :
    (r.offset = offset ∧ SameFile os r.fd fd ∧ r.info.prot = prot →
      ∃ idx, scan os addr size fd offset prot 0 c.regions = .same idx) ∧
    (¬ (r.offset = offset ∧ SameFile os r.fd fd ∧ r.info.prot = prot) →
      scan os addr size fd offset prot 0 c.regions = .bad EINVAL) := by
  obtain ⟨l1, l2, hs⟩ := List.append_of_mem hr
  have hj : c.regions[l1.length]? = some r := by rw [hs]; simp
  have hno : ∀ s ∈ l1, ¬ (s.info.base = addr ∧ s.info.len = size) ∧ ¬ Clash addr size s := by
    intro s hs1
    obtain ⟨i, hi1⟩ := List.getElem?_of_mem hs1
    have hlt : i < l1.length := (List.getElem?_eq_some_iff.mp hi1).1
    have hi2 : c.regions[i]? = some s := by rw [hs, List.getElem?_append_left hlt]; exact hi1
    refine ⟨fun ⟨h1, h2⟩ => ?_, ?_⟩
    · have := keys_inj hk i l1.length s r hi2 hj (by rw [h1, hb]) (by rw [h2, hl])
      omega
    · have := sep_not_overlap hi hi2 hj hlt
      rwa [hb, hl] at this
  rw [hs, scan_append l1 _ 0 hno]
  simp only [scan, hb, hl, and_self, if_true]
  constructor
  · rintro ⟨rfl, h2, rfl⟩
    have h2' := (sameFile_iff os r.fd fd).mpr h2
    exact ⟨0 + l1.length, by simp [h2']⟩
  · intro hn
    split
    · rfl
    · rename_i h1
      split
      · rfl
      · rename_i h2
        split
        · rfl
        · rename_i h3
          exfalso
          apply hn
          refine ⟨by simpa using Eq.symm (by simpa using h1), ?_, by simpa using h3⟩
          rw [← sameFile_iff]; simpa using h2

theorem getBitmapSize_lt {n p : Nat} (hp : p ≠ 0) (h : n < p) : getBitmapSize n p = .err EINVAL := by
  simp [getBitmapSize, hp, h]

theorem getBitmapSize_ge {n p : Nat} (hp : p ≠ 0) (h : ¬ n < p) :
    ∃ b, getBitmapSize n p = .ok b := by
  simp [getBitmapSize, hp, h]

theorem handleMap_decision (os : OS) (hasReg : Bool) (c : Ctl) (q : MapReq) (hi : Inv c)
    (hk : c.geoms.Pairwise KeyG) (hos : os.Ok) (hq : q.Bounded) (hw : q.addr + q.size < U64) :
    match mapDecision os c q with
    | .refused e => (handleMap os hasReg c q).res = .err e ∧ (handleMap os hasReg c q).ctl = c
    | .repeated => (handleMap os hasReg c q).res = .ok () ∧ (handleMap os hasReg c q).ctl = c
    | .accepted m => (handleMap os hasReg c q).res = .ok () ∧
        ∃ r : Region, (handleMap os hasReg c q).ctl = { c with regions := c.regions ++ [r] } ∧
          r.info.base = q.addr ∧ r.info.len = q.size ∧ r.info.prot = q.attr.prot ∧
          r.offset = q.offset ∧ r.fd = q.fds.head? ∧ (m = none → r.info.vaddr = 0) ∧
          (∀ b, m = some b → r.info.mapBase = b) := by
  have hflags : q.flags % U32 / 4 = 0 ↔ ¬ q.flags ≥ 4 := by
    rw [Nat.mod_eq_of_lt hq.2.2.2]; omega
  have hcase := handleMap_case os hasReg c q
  -- the controller's answer determines everything
  suffices h : q.flags < 4 →
      match mapDecision os c q with
      | .refused e => ∃ ev, addRegion os c q.addr q.size q.fds.head? q.offset q.attr.prot = (c, .err e, ev)
      | .repeated => ∃ i, addRegion os c q.addr q.size q.fds.head? q.offset q.attr.prot = (c, .ok i, [])
      | .accepted m => ∃ c' i ev r,
          addRegion os c q.addr q.size q.fds.head? q.offset q.attr.prot = (c', .ok i, ev) ∧
          c' = { c with regions := c.regions ++ [r] } ∧ (m = none → r.info.vaddr = 0) ∧
          (∀ b, m = some b → r.info.mapBase = b) by
    generalize handleMap os hasReg c q = o at hcase
    by_cases hf : q.flags ≥ 4
    · have hd : mapDecision os c q = .refused EINVAL := by simp [mapDecision, hf]
      rw [hd]
      cases hcase with
      | flags e _ he => subst he; exact ⟨rfl, rfl⟩
      | fail e ev h1 _ _ => exact absurd hf (hflags.mp h1)
      | again idx r h1 _ _ _ _ _ _ _ => exact absurd hf (hflags.mp h1)
      | new r h1 _ _ _ _ _ => exact absurd hf (hflags.mp h1)
    · have h := h (by omega)
      split at h
      · rename_i e hd
        obtain ⟨ev, h⟩ := h
        cases hcase with
        | flags e h1 he => exact absurd (hflags.mpr hf) h1
        | fail e' ev' h1 h2 _ => rw [h] at h2; cases h2; exact ⟨rfl, rfl⟩
        | again idx r h1 _ _ _ _ _ _ h2 => rw [h] at h2; cases h2
        | new r h1 _ _ _ _ h2 => rw [h] at h2; simp at h2
      · obtain ⟨i, h⟩ := h
        cases hcase with
        | flags e h1 he => exact absurd (hflags.mpr hf) h1
        | fail e' ev' h1 h2 _ => rw [h] at h2; cases h2
        | again idx r h1 _ _ _ _ _ _ h2 => exact ⟨rfl, rfl⟩
        | new r h1 _ _ _ _ h2 =>
          rw [h] at h2
          have := congrArg (fun x => x.1.regions.length) h2
          simp at this
      · rename_i m hd
        obtain ⟨c', i, ev, r, h, hc', hm1, hm2⟩ := h
        cases hcase with
        | flags e h1 he => exact absurd (hflags.mpr hf) h1
        | fail e' ev' h1 h2 _ => rw [h] at h2; simp at h2
        | again idx r h1 _ _ _ _ _ _ h2 =>
          rw [h, hc'] at h2
          have := congrArg (fun x => x.1.regions.length) h2
          simp at this
        | new r' h1 _ _ _ hn h2 =>
          rw [h, hc'] at h2
          have := congrArg (fun x => x.1.regions) h2
          simp at this
          subst this
          exact ⟨rfl, r, rfl, hn.hbase, hn.hlen, hn.hprot, hn.hoffset, hn.hfd, hm1, hm2⟩
  intro hf
  have hf' : ¬ q.flags ≥ 4 := by omega
  unfold mapDecision
  simp only [hf', if_false]
  by_cases hsz : q.size > c.maxSize
  · simp only [hsz, if_true]
    exact ⟨[], by simp [addRegion, hsz]⟩
  · simp only [hsz, if_false]
    by_cases hex : ∃ r ∈ c.regions, r.info.base = q.addr ∧ r.info.len = q.size
    · simp only [hex, if_true]
      obtain ⟨r, hr, hb, hl⟩ := hex
      obtain ⟨e1, e2⟩ := scan_exact (os := os) (fd := q.fds.head?) (offset := q.offset)
        (prot := q.attr.prot) hi hk hr hb hl
      by_cases hm : ∃ r ∈ c.regions, r.info.base = q.addr ∧ r.info.len = q.size ∧
          r.offset = q.offset ∧ SameFile os r.fd q.fds.head? ∧ r.info.prot = q.attr.prot
      · simp only [hm, if_true]
        obtain ⟨r', hr', hb', hl', hm'⟩ := hm
        have : r = r' := mem_unique hk hr hr' (by rw [hb, hb']) (by rw [hl, hl'])
        subst this
        obtain ⟨i, hs⟩ := e1 hm'
        exact ⟨i, by simp [addRegion, hsz, hs]⟩
      · simp only [hm, if_false]
        have hs := e2 (fun h => hm ⟨r, hr, hb, hl, h⟩)
        exact ⟨[], by simp [addRegion, hsz, hs]⟩
    · simp only [hex, if_false]
      have hcl : ∀ r ∈ c.regions, (Clash q.addr q.size r ↔ Overlaps q.addr q.size r) := by
        intro r hr
        have := hi.nowrap r.geom (List.mem_map_of_mem hr)
        exact clash_iff this hw
      by_cases hov : ∃ r ∈ c.regions, Overlaps q.addr q.size r
      · simp only [hov, if_true]
        refine ⟨[], ?_⟩
        have : scan os q.addr q.size q.fds.head? q.offset q.attr.prot 0 c.regions = .bad EINVAL := by
          cases hs : scan os q.addr q.size q.fds.head? q.offset q.attr.prot 0 c.regions with
          | bad e => rw [scan_bad _ _ _ hs]
          | same i =>
            obtain ⟨r, _, h2, h3, h4, _⟩ := scan_same _ _ _ hs
            exact absurd ⟨r, List.mem_of_getElem? h2, h3, h4⟩ hex
          | fresh =>
            rw [scan_fresh_iff] at hs
            obtain ⟨r, hr, ho⟩ := hov
            exact absurd ((hcl r hr).mpr ho) (hs r hr).2
        simp [addRegion, hsz, this]
      · simp only [hov, if_false]
        have hfr : scan os q.addr q.size q.fds.head? q.offset q.attr.prot 0 c.regions = .fresh := by
          rw [scan_fresh_iff]
          intro r hr
          exact ⟨fun h => hex ⟨r, hr, h⟩, fun h => hov ⟨r, hr, (hcl r hr).mp h⟩⟩
        by_cases hfull : c.regions.length = c.maxRegions
        · simp only [hfull, if_true]
          exact ⟨[], by simp [addRegion, hsz, hfr, hfull]⟩
        · simp only [hfull, if_false]
          cases hfd : q.fds with
          | nil =>
            simp only [List.head?_nil]
            rw [hfd, List.head?_nil] at hfr
            refine ⟨_, _, _, _, by simp [addRegion, hsz, hfr, hfull, pageSizeFor]; exact ⟨rfl, rfl, rfl⟩, rfl, ?_, ?_⟩
            · intro _; rfl
            · intro b hb; cases hb
          | cons fd fds =>
            simp only [List.head?_cons]
            rw [hfd, List.head?_cons] at hfr
            cases hblk : os.blksize fd with
            | none =>
              exact ⟨[], by simp [addRegion, hsz, hfr, hfull, pageSizeFor, hblk]⟩
            | some b =>
              simp only
              have hps : pageSizeFor os (some fd) = .ok (mapPage os b) := by
                simp only [pageSizeFor, hblk, mapPage]
                congr 1
                split
                · rename_i h; exact Nat.max_eq_left h
                · rename_i h; exact Nat.max_eq_right (by omega)
              obtain ⟨k, hk64, hpk⟩ := pow2_page hos hps
              have hru : (q.size + mapPage os b - 1) % U64 / mapPage os b * mapPage os b
                  = roundUp q.size (mapPage os b) := by
                rw [hpk]; unfold roundUp; rw [roundDown_pow2_mod _ hk64]
              have hrd : q.offset / mapPage os b * mapPage os b = roundDown q.offset (mapPage os b) := by
                rw [hpk, roundDown_pow2 hq.2.2.1 hk64]
              rw [hru, hrd]
              by_cases hd : c.dirtyPgsize = 0
              · simp only [hd, ne_eq, not_true_eq_false, false_and, if_false]
                cases hmm : os.mmap (roundUp q.size (mapPage os b)) (roundDown q.offset (mapPage os b)) with
                | error e => exact ⟨_, by simp [addRegion, hsz, hfr, hfull, hps, hd, mapRegion, hmm]; rfl⟩
                | ok base =>
                  refine ⟨_, _, _, _, by simp [addRegion, hsz, hfr, hfull, hps, hd, mapRegion, hmm]; exact ⟨rfl, rfl, rfl⟩, rfl, ?_, ?_⟩
                  · intro h; cases h
                  · intro b' hb'; cases hb'; rfl
              · simp only [hd, ne_eq, not_false_eq_true, true_and]
                by_cases hlt : q.size < c.dirtyPgsize
                · simp only [hlt, if_true]
                  exact ⟨[], by simp [addRegion, hsz, hfr, hfull, hps, hd, startOnRegion,
                    getBitmapSize_lt hd hlt]⟩
                · simp only [hlt, if_false]
                  obtain ⟨n, hn⟩ := getBitmapSize_ge hd hlt
                  cases hca : os.calloc with
                  | false =>
                    simp only [if_true]
                    exact ⟨[], by simp [addRegion, hsz, hfr, hfull, hps, hd, startOnRegion, hn, hca]⟩
                  | true =>
                    simp only [Bool.true_eq_false, if_false]
                    cases hmm : os.mmap (roundUp q.size (mapPage os b)) (roundDown q.offset (mapPage os b)) with
                    | error e =>
                      exact ⟨_, by simp [addRegion, hsz, hfr, hfull, hps, hd, mapRegion, hmm, startOnRegion, hn, hca]; rfl⟩
                    | ok base =>
                      refine ⟨_, _, _, _, by simp [addRegion, hsz, hfr, hfull, hps, hd, mapRegion, hmm, startOnRegion, hn, hca]; exact ⟨rfl, rfl, rfl⟩, rfl, ?_, ?_⟩
                      · intro h; cases h
                      · intro b' hb'; cases hb'; rfl

end Verif.Dma
