import Verif.Pci.ExtCaps

/-! # Looking up capabilities (C67), and when additions cannot abort (C40) -/

namespace Verif.Pci
open Verif

/-- What a search through a list of capabilities answers: the first one with the id, else ENOENT. -/
def answer (id : Nat) (l : List Cap) : Res Nat :=
  match l.find? (fun c => c.id = id) with
  | some c => .ok c.off
  | none => .err ENOENT

theorem findLoop_eq {p : Pci} (hb : 256 ≤ p.size ∧ p.size ≤ p.alloc) (id : Nat) : ∀ (r : List Cap) (c : Cap) (fuel : Nat),
    (∀ d ∈ c :: r, StdOk p.mem d) → Walk p.mem (c.off + 1) (r.map Cap.off) → r.length < fuel →
    findLoop p id fuel c.off = answer id (c :: r) := by
  intro r
  induction r with
  | nil =>
    intro c fuel hok hw hf
    obtain ⟨n, rfl⟩ : ∃ n, fuel = n + 1 := ⟨fuel - 1, by omega⟩
    have h := hok c (List.mem_cons_self ..)
    have h1 := h.hi
    have h2 := h.fits
    have h3 := h.hdr
    have h4 := stdHdr_ge c.id
    unfold findLoop answer
    rw [if_neg (by omega), if_neg (by omega), h.id]
    cases hw with
    | nil h0 =>
      by_cases hi : c.id = id
      · rw [if_pos hi]; simp [hi]
      · rw [if_neg hi, if_pos h0]; simp [hi]
  | cons d r ih =>
    intro c fuel hok hw hf
    obtain ⟨n, rfl⟩ : ∃ n, fuel = n + 1 := ⟨fuel - 1, by omega⟩
    have h := hok c (List.mem_cons_self ..)
    have h1 := h.hi
    have h2 := h.fits
    have h3 := h.hdr
    have h4 := stdHdr_ge c.id
    unfold findLoop answer
    rw [if_neg (by omega), if_neg (by omega), h.id]
    by_cases hi : c.id = id
    · rw [if_pos hi]; simp [hi]
    · rw [if_neg hi]
      cases hw with
      | cons e1 e2 e3 =>
        rw [if_neg (by intro h0; rw [h0] at e1; exact e2 e1.symm), e1]
        rw [ih d n (fun x hx => hok x (List.mem_cons_of_mem _ hx)) e3 (by simp at hf; omega)]
        unfold answer
        rw [List.find?_cons, List.find?_cons, List.find?_cons]
        simp [hi]

/-- Looking up a standard capability finds the first one added with that id; ENOENT exactly if there is none. -/
theorem C67_first {hasCb : Bool} {p : Pci} (h : Reach hasCb p) (id : Nat) : findNext p 0 id = answer id p.caps := by
  have hi := h.inv
  have hb := hi.bnd
  have h1 := hb.std
  have h2 := hb.alloc
  have h3 := hi.walk
  have h4 := hi.nstd
  unfold findNext
  rw [if_neg (by unfold add64; simp only [U64]; omega), if_neg (by omega)]
  dsimp only
  rw [if_pos rfl]
  cases hc : p.caps with
  | nil =>
    rw [hc] at h3
    cases h3 with
    | nil h0 => rw [h0]; rfl
  | cons c r =>
    rw [hc] at h3
    cases h3 with
    | cons e1 e2 e3 =>
      rw [e1, if_neg e2]
      exact findLoop_eq ⟨h1, h2⟩ id r c 257 (fun d hd => hi.std d (by rw [hc]; exact hd)) e3 (by rw [hc] at h4; simp at h4; omega)

theorem walk_drop {m : Mem} : ∀ {l r : List Cap} {c : Cap} {a : Nat}, Walk m a ((l ++ c :: r).map Cap.off) →
    Walk m (c.off + 1) (r.map Cap.off) := by
  intro l
  induction l with
  | nil => intro r c a h; cases h; assumption
  | cons d l ih => intro r c a h; cases h; rename_i h; exact ih h

/-- Continuing from a capability finds the next one with that id. -/
theorem C67_next {hasCb : Bool} {p : Pci} (h : Reach hasCb p) (id : Nat) {l r : List Cap} {c : Cap} (hs : p.caps = l ++ c :: r) :
    findNext p c.off id = answer id r := by
  have hi := h.inv
  have hb := hi.bnd
  have h1 := hb.std
  have h2 := hb.alloc
  have h3 := hi.walk
  have h4 := hi.nstd
  have hok := hi.std c (by rw [hs]; simp)
  have g1 := hok.hi
  have g2 := hok.fits
  have g3 := hok.hdr
  have g4 := stdHdr_ge c.id
  have g5 := hok.lo
  rw [hs] at h3
  have h5 := walk_drop h3
  unfold findNext
  rw [if_neg (by unfold add64; simp only [U64]; omega), if_neg (by omega)]
  dsimp only
  have hc0 : c.off ≠ 0 := by omega
  rw [if_neg hc0]
  cases hr : r with
  | nil =>
    rw [hr] at h5
    cases h5 with
    | nil h0 => rw [h0]; rfl
  | cons d t =>
    rw [hr] at h5
    cases h5 with
    | cons e1 e2 e3 =>
      rw [e1, if_neg e2]
      exact findLoop_eq ⟨h1, h2⟩ id t d 257 (fun x hx => hi.std x (by rw [hs, hr]; simp at hx ⊢; rcases hx with hx | hx <;> simp [hx]))
        e3 (by rw [hs, hr] at h4; simp at h4; omega)

theorem extSize_ge {id v s : Nat} (h : extSize id v = some s) (hh : extHdr id ≤ s) : 8 ≤ s := by
  unfold extSize at h
  split at h
  · injection h; omega
  · split at h
    · rename_i h1
      have : extHdr id = 8 := by rw [h1]; rfl
      omega
    · cases h

theorem findExtLoop_eq {p : Pci} (hb : p.size ≤ p.alloc) (id : Nat) : ∀ (r : List Cap) (c : Cap) (fuel : Nat),
    (∀ d ∈ c :: r, ExtOk p.mem p.size d) → XWalk p.mem c.off (r.map Cap.off) → r.length < fuel →
    findExtLoop p id fuel c.off = answer id (c :: r) := by
  intro r
  induction r with
  | nil =>
    intro c fuel hok hw hf
    obtain ⟨n, rfl⟩ : ∃ n, fuel = n + 1 := ⟨fuel - 1, by omega⟩
    have h := hok c (List.mem_cons_self ..)
    have h1 := h.hi
    have h2 := extSize_ge h.size (by rw [← h.hdr]; exact h.fits)
    unfold findExtLoop answer
    rw [if_neg (by omega), if_neg (by omega), h.id]
    cases hw with
    | nil h0 =>
      by_cases hi : c.id = id
      · rw [if_pos hi]; simp [hi]
      · rw [if_neg hi, if_pos h0]; simp [hi]
  | cons d r ih =>
    intro c fuel hok hw hf
    obtain ⟨n, rfl⟩ : ∃ n, fuel = n + 1 := ⟨fuel - 1, by omega⟩
    have h := hok c (List.mem_cons_self ..)
    have h1 := h.hi
    have h2 := extSize_ge h.size (by rw [← h.hdr]; exact h.fits)
    have hd := hok d (by simp)
    have h3 := hd.hi
    have h4 := extSize_ge hd.size (by rw [← hd.hdr]; exact hd.fits)
    unfold findExtLoop answer
    rw [if_neg (by omega), if_neg (by omega), h.id]
    by_cases hi : c.id = id
    · rw [if_pos hi]; simp [hi]
    · rw [if_neg hi]
      cases hw with
      | cons e1 e2 e3 =>
        rw [e1, if_neg e2, if_neg (by omega)]
        rw [ih d n (fun x hx => hok x (List.mem_cons_of_mem _ hx)) e3 (by simp at hf; omega)]
        unfold answer
        rw [List.find?_cons, List.find?_cons, List.find?_cons]
        simp [hi]

/-- The same for extended capabilities (of a device with a config space of 4096 bytes; the id 0 stands for none). -/
theorem C67_ext_first {hasCb : Bool} {p : Pci} (h : Reach hasCb p) (hbig : 260 < p.size) {id : Nat} (hid : id ≠ 0) :
    findNextExt p 0 id = answer id p.exts := by
  have hi := h.inv
  have hb := hi.bnd
  have h2 := hb.alloc
  have h3 := hi.xwalk
  have h4 := hi.next
  unfold findNextExt
  rw [if_neg (by unfold add64; simp only [U64]; omega), if_pos rfl, if_neg (by omega)]
  cases hc : p.exts with
  | nil =>
    rw [hc] at h3
    obtain ⟨e1, e2, e3⟩ := h3
    have e4 : extId p.mem 256 = 0 := by unfold extId; rw [rd2, e1, e2]; rfl
    unfold findExtLoop
    rw [if_neg (by omega), if_neg (by omega), e4, if_neg (by omega), if_pos e3]
    rfl
  | cons c r =>
    rw [hc] at h3
    obtain ⟨e1, e2, e3⟩ := h3
    rw [← e1] at e3 ⊢
    exact findExtLoop_eq h2 id r c 4097 (fun d hd => hi.ext d (by rw [hc]; exact hd)) e3 (by rw [hc] at h4; simp at h4; omega)

theorem xwalk_drop {m : Mem} : ∀ {l r : List Cap} {c : Cap} {a : Nat}, XWalk m a ((l ++ c :: r).map Cap.off) →
    XWalk m c.off (r.map Cap.off) := by
  intro l
  induction l with
  | nil => intro r c a h; cases h; assumption
  | cons d l ih => intro r c a h; cases h; rename_i h; exact ih h

theorem extList_drop {m : Mem} {l r : List Cap} {c : Cap} (h : ExtList m ((l ++ c :: r).map Cap.off)) :
    XWalk m c.off (r.map Cap.off) := by
  cases l with
  | nil => obtain ⟨h1, _, h2⟩ := h; rw [← h1] at h2; exact h2
  | cons d l => obtain ⟨_, _, h2⟩ := h; exact xwalk_drop h2

/-- Continuing from an extended capability other than the last. -/
theorem C67_ext_next {hasCb : Bool} {p : Pci} (h : Reach hasCb p) (id : Nat) {l r : List Cap} {c d : Cap}
    (hs : p.exts = l ++ c :: d :: r) : findNextExt p c.off id = answer id (d :: r) := by
  have hi := h.inv
  have hb := hi.bnd
  have hsm := hb.small
  have h2 := hb.alloc
  have h3 := hi.xwalk
  have h4 := hi.next
  have hok := hi.ext c (by rw [hs]; simp)
  have g1 := hok.hi
  have g2 := extSize_ge hok.size (by rw [← hok.hdr]; exact hok.fits)
  have g3 := hok.lo
  have hok' := hi.ext d (by rw [hs]; simp)
  have k1 := hok'.hi
  have k2 := extSize_ge hok'.size (by rw [← hok'.hdr]; exact hok'.fits)
  rw [hs] at h3
  have h5 := extList_drop h3
  unfold findNextExt
  rw [if_neg (by unfold add64; simp only [U64]; omega), if_neg (by omega), if_neg (by omega)]
  cases h5 with
  | cons e1 e2 e3 =>
    rw [e1, if_neg (by omega)]
    exact findExtLoop_eq h2 id r d 4097 (fun x hx => hi.ext x (by rw [hs]; simp at hx ⊢; rcases hx with hx | hx <;> simp [hx]))
      e3 (by rw [hs] at h4; simp at h4; omega)

/-! ## Additions: content, and no aborts -/

theorem Reach.size {hasCb : Bool} {p : Pci} (h : Reach hasCb p) : p.size = if p.big then 4096 else 256 := by
  induction h with
  | init big bar => rfl
  | std h1 h2 h3 _ _ _ _ ih =>
    obtain ⟨_, _, _, _, _, _, _, _, hp⟩ := addStd_ok h1.inv (addCap_std h2 h3)
    rw [hp]; exact ih
  | ext h1 h2 h3 _ _ _ ih =>
    obtain ⟨_, _, _, _, _, _, _, _, _, _, hp, _⟩ := addExt_ok h1.inv (addCap_ext h2 h3)
    rw [hp]; exact ih
  | other _ _ ih => exact ih

/-- A capability that was added holds the bytes given, but for its link, and no other byte changes but links. -/
theorem C40_content {hasCb : Bool} {p p' : Pci} (h : Reach hasCb p) {pos off : Nat} {fl : CapFlags} {data : List Byte}
    (ha : addCap hasCb p pos fl data = (p', .ok off)) (hap : pos = 0 → ∀ c ∈ p'.all, c.off = off → ∀ d ∈ p.all, Apart off c.size d) :
    (fl.ext = false → ∃ size, stdSize (leAt data 0 1) (leAt data 2 1) = some size ∧ size ≤ data.length ∧
      (∀ i, i < size → i ≠ 1 → p'.mem (off + i) = data.getD i 0#8) ∧
      ∀ x, (x < off ∨ off + size ≤ x) → x ≠ off + 1 → x ≠ 0x34 → (∀ c ∈ p.caps, x ≠ c.off + 1) → p'.mem x = p.mem x) ∧
    (fl.ext = true → ∃ size, extSize (leAt data 0 2) (leAt data 4 4) = some size ∧ size ≤ data.length ∧
      (∀ i, i < size → i < 2 ∨ 4 ≤ i → p'.mem (off + i) = data.getD i 0#8) ∧
      ∀ x, (x < off ∨ off + size ≤ x) → (x < off + 2 ∨ off + 4 ≤ x) →
        (∀ c ∈ p.exts, x < c.off + 2 ∨ c.off + 4 ≤ x) → p'.mem x = p.mem x) := by
  have hi := h.inv
  refine ⟨?_, ?_⟩
  · intro hf
    obtain ⟨size, h1, _, h2, h3, h4, h5, h6, hp⟩ := addStd_ok hi (addCap_std hf ha)
    have hmem := endLink_mem (p.caps.map Cap.off) 0x34
    have hlp := link_place hi hmem
    have hap' : ∀ d ∈ p.all, Apart off size d := by
      by_cases hpos : pos = 0
      · refine hap hpos ⟨false, leAt data 0 1, off, stdHdr (leAt data 0 1), size, fl.ro, fl.cbk⟩ ?_ rfl
        rw [hp]; unfold Pci.all; simp
      · exact (h5 hpos).2
    refine ⟨size, h1, h2, ?_, ?_⟩
    · intro i hi1 hi2
      rw [hp]
      dsimp only
      rw [wrM_out (by simp only [List.length_singleton]; omega), wrM_out, wrM_in (by omega) (by rw [List.length_take]; omega), take_getD (by omega),
        show off + i - off = i by omega]
      rcases hlp with hl | ⟨c, hc, hl1, hl2, hl3⟩
      · rw [hl]; simp only [List.length_singleton]; omega
      · have := hap' c (mem_all_std hc)
        unfold Apart at this
        simp only [List.length_singleton]
        omega
    · intro x hx1 hx2 hx3 hx4
      rw [hp]
      dsimp only
      have hne : x ≠ endLink 52 (p.caps.map Cap.off) := by
        rcases hlp with hl | ⟨c, hc, hl1, _⟩
        · rw [hl]; exact hx3
        · rw [hl1]; exact hx4 c hc
      rw [wrM_out (by simp only [List.length_singleton]; omega), wrM_out (by simp only [List.length_singleton]; omega),
        wrM_out (by rw [List.length_take]; omega)]
  · intro hf
    obtain ⟨size, m', h1, _, h2, h3, h4, _, h5, h6, hp, hm⟩ := addExt_ok hi (addCap_ext hf ha)
    have hap' : ∀ d ∈ p.all, Apart off size d := by
      by_cases hpos : pos = 0
      · refine hap hpos ⟨true, leAt data 0 2, off, extHdr (leAt data 0 2), size, fl.ro, fl.cbk⟩ ?_ rfl
        rw [hp]; unfold Pci.all; simp
      · exact (h5 hpos).2
    have hlast : p.exts ≠ [] → ∃ c ∈ p.exts, c.off = endHdr 256 (p.exts.map Cap.off).tail := by
      intro hne
      have hx := hi.xwalk
      have := endHdr_mem (p.exts.map Cap.off).tail 256
      cases he : p.exts with
      | nil => exact absurd he hne
      | cons c l =>
        rw [he] at hx this
        simp only [List.map_cons, List.tail_cons] at this hx ⊢
        have h9 : endHdr 256 (l.map Cap.off) ∈ (c :: l).map Cap.off := by
          rw [← hx.1] at this; rw [← hx.1]; exact this
        rw [List.mem_map] at h9
        exact h9
    refine ⟨size, h1, h2, ?_, ?_⟩
    · intro i hi1 hi2
      rw [hp]
      dsimp only
      have hw : wrM p.mem off (data.take size) (off + i) = data.getD i 0#8 := by
        rw [wrM_in (by omega) (by rw [List.length_take]; omega), take_getD (by omega), show off + i - off = i by omega]
      rcases hm with ⟨_, hoff, hm | hm⟩ | ⟨hne, hm⟩
      · rw [hm, setNext_out (by omega), hw]
      · rw [hm, setNext_out (by omega), setNext_out (by omega), hw]
      · obtain ⟨c, hc, hce⟩ := hlast hne
        have h7 := hap' c (mem_all_ext hc)
        have h8 := (hi.ext c hc).fits
        have h9 := (hi.ext c hc).hdr
        have h10 := extHdr_ge c.id
        unfold Apart at h7
        rw [hm, setNext_out (by omega), setNext_out (by omega), hw]
    · intro x hx1 hx2 hx3
      rw [hp]
      dsimp only
      have hw : wrM p.mem off (data.take size) x = p.mem x := wrM_out (by rw [List.length_take]; omega)
      rcases hm with ⟨_, hoff, hm | hm⟩ | ⟨hne, hm⟩
      · rw [hm, setNext_out (by omega), hw]
      · rw [hm, setNext_out (by omega), setNext_out (by omega), hw]
      · obtain ⟨c, hc, hce⟩ := hlast hne
        have h7 := hx3 c hc
        rw [hm, setNext_out (by omega), setNext_out (by omega), hw]

theorem addCap_total {hasCb : Bool} {p : Pci} (hi : Inv p) (hsz : p.big = true → p.size = 4096) {pos : Nat} {fl : CapFlags} {data : List Byte}
    (hpos : pos < 2 ^ 63) (h4 : fl.ext = true → pos % 4 = 0)
    (hstd : fl.ext = false → ∀ s, stdSize (leAt data 0 1) (leAt data 2 1) = some s → stdHdr (leAt data 0 1) ≤ s ∧ s ≤ data.length)
    (hext : fl.ext = true → ∀ s, extSize (leAt data 0 2) (leAt data 4 4) = some s → extHdr (leAt data 0 2) ≤ s ∧ s ≤ data.length) :
    ∀ f, (addCap hasCb p pos fl data).2 ≠ .fault f := by
  have hal := hi.bnd.alloc
  have hsm := hi.bnd.small
  intro f
  unfold addCap
  split
  · intro hc; cases hc
  · split
    · intro hc; cases hc
    · cases hf : fl.ext with
      | true =>
        unfold addExt
        rw [if_pos rfl]
        split
        · intro hc; cases hc
        · rename_i hbig
          have hbig : p.big = true := by cases hb : p.big <;> simp_all
          have hsz := hsz hbig
          split
          · intro hc; cases hc
          · dsimp only
            cases hs : extSize (leAt data 0 2) (leAt data 4 4) with
            | none => intro hc; cases hc
            | some size =>
              dsimp only
              obtain ⟨hh, hd⟩ := hext hf size hs
              have h40 := extHdr_ge (leAt data 0 2)
              have hsl := extSize_lt (leAt_lt data 4 4) hs
              split
              · intro hc; cases hc
              · have hpl : (∃ e, extPlace p pos size = .err e) ∨ ∃ o l, extPlace p pos size = .ok (o, l) ∧ o % 4 = 0 ∧ o < 2 ^ 63 := by
                  have hle := last_ext hi (by omega) (by omega)
                  unfold extPlace
                  rw [if_neg (by omega), if_neg (by omega), hle]
                  by_cases hp : pos ≠ 0
                  · rw [if_pos hp]
                    split
                    · exact .inl ⟨_, rfl⟩
                    · split
                      · exact .inl ⟨_, rfl⟩
                      · split
                        · exact .inl ⟨_, rfl⟩
                        · exact .inr ⟨pos, _, rfl, h4 hf, hpos⟩
                  · rw [if_neg hp]
                    rcases exts_first hi with ⟨h7, h8⟩ | ⟨h7, h8⟩
                    · rw [if_pos h8]; exact .inr ⟨256, _, rfl, rfl, by omega⟩
                    · rw [if_neg h8]
                      dsimp only
                      have hx := hi.xwalk
                      have hm := endHdr_mem (p.exts.map Cap.off).tail 256
                      have hc : ∃ c ∈ p.exts, c.off = endHdr 256 (p.exts.map Cap.off).tail := by
                        cases he : p.exts with
                        | nil => exact absurd he h7
                        | cons c l =>
                          rw [he] at hx hm
                          simp only [List.map_cons, List.tail_cons] at hm hx ⊢
                          have h9 : endHdr 256 (l.map Cap.off) ∈ (c :: l).map Cap.off := by
                            rw [← hx.1] at hm; rw [← hx.1]; exact hm
                          rw [List.mem_map] at h9
                          exact h9
                      obtain ⟨c, hc, hce⟩ := hc
                      have hok := hi.ext c hc
                      have g1 := hok.hi
                      have g2 := extSize_ge hok.size (by rw [← hok.hdr]; exact hok.fits)
                      rw [← hce, if_neg (by omega), hok.id, hok.size]
                      refine .inr ⟨_, _, rfl, ?_, ?_⟩
                      · unfold up4; omega
                      · unfold up4 add64; simp only [U64]; omega
                rcases hpl with ⟨e, he⟩ | ⟨o, l, he, ho, hol⟩
                · rw [he]; intro hc; cases hc
                · rw [he]
                  dsimp only
                  split
                  · intro hc; cases hc
                  · rename_i h1
                    have hadd : add64 o size = o + size := Nat.mod_eq_of_lt (by simp only [U64]; omega)
                    rw [hadd] at h1
                    rw [if_neg (by omega), if_neg (by omega)]
                    cases l with
                    | none => intro hc; cases hc
                    | some a =>
                      dsimp only
                      rw [if_neg (by omega)]
                      intro hc; cases hc
      | false =>
        unfold addStd
        rw [if_neg (by simp)]
        split
        · intro hc; cases hc
        · dsimp only
          cases hs : stdSize (leAt data 0 1) (leAt data 2 1) with
          | none => intro hc; cases hc
          | some size =>
            dsimp only
            obtain ⟨hh, hd⟩ := hstd hf size hs
            have h40 := stdHdr_ge (leAt data 0 1)
            have hsl := stdSize_lt (leAt_lt data 1 2) hs
            split
            · intro hc; cases hc
            · have hpl : (∃ e, stdPlace p pos size = .err e) ∨ ∃ o l, stdPlace p pos size = .ok (o, l) ∧ o < 2 ^ 63 := by
                have hle := last_link hi
                unfold stdPlace
                rw [hle]
                by_cases hp : pos ≠ 0
                · rw [if_pos hp]
                  split
                  · exact .inl ⟨_, rfl⟩
                  · split
                    · exact .inl ⟨_, rfl⟩
                    · exact .inr ⟨pos, _, rfl, hpos⟩
                · rw [if_neg hp]
                  split
                  · exact .inr ⟨64, _, rfl, by omega⟩
                  · rename_i h34
                    dsimp only
                    have hm := link_place hi (endLink_mem (p.caps.map Cap.off) 0x34)
                    have hcc : ∃ c ∈ p.caps, endLink 0x34 (p.caps.map Cap.off) = c.off + 1 := by
                      rcases List.eq_nil_or_concat p.caps with hnil | ⟨l, c, hlc⟩
                      · have hw := hi.walk
                        rw [hnil] at hw
                        cases hw with
                        | nil h0 => exact absurd h0 h34
                      · rw [List.concat_eq_append] at hlc
                        refine ⟨c, by rw [hlc]; simp, ?_⟩
                        rw [hlc, List.map_append]
                        exact endLink_snoc _ _ _
                    obtain ⟨c, hc, hce⟩ := hcc
                    have hok := hi.std c hc
                    have g1 := hok.hi
                    have g2 := hok.fits
                    have g3 := hok.hdr
                    have g4 := stdHdr_ge c.id
                    have g5 := hi.bnd.std
                    rw [hce]
                    have hsc := hok.size
                    have hsz8 : 3 ≤ c.size := by
                      by_cases hv : c.id = ID_VNDR
                      · have : stdHdr c.id = 3 := by rw [hv]; rfl
                        omega
                      · have h9 := hok.size
                        unfold stdSize at h9
                        split at h9
                        · injection h9; omega
                        · split at h9
                          · injection h9; omega
                          · split at h9
                            · injection h9; omega
                            · split at h9
                              · injection h9; omega
                              · cases h9
                    rw [if_neg (by omega), show c.off + 1 - 1 = c.off by omega, show c.off + 1 + 1 = c.off + 2 by omega, hok.id, hok.size]
                    refine .inr ⟨_, _, rfl, ?_⟩
                    unfold up4 add64; simp only [U64]; omega
              rcases hpl with ⟨e, he⟩ | ⟨o, l, he, hol⟩
              · rw [he]; intro hc; cases hc
              · rw [he]
                dsimp only
                split
                · intro hc; cases hc
                · rename_i h1
                  have hadd : add64 o size = o + size := Nat.mod_eq_of_lt (by simp only [U64]; omega)
                  rw [hadd] at h1
                  rw [if_neg (by omega), if_neg (by omega)]
                  intro hc; cases hc

/-- The library aborts or runs past its buffers on no addition of a whole capability (the data is as long as the size it
declares, which covers the header), if an explicit offset is below 2^63 and, for an extended capability, a multiple
of 4. -/
theorem C40_total {hasCb : Bool} {p : Pci} (h : Reach hasCb p) {pos : Nat} {fl : CapFlags} {data : List Byte}
    (hpos : pos < 2 ^ 63) (h4 : fl.ext = true → pos % 4 = 0)
    (hstd : fl.ext = false → ∀ s, stdSize (leAt data 0 1) (leAt data 2 1) = some s → stdHdr (leAt data 0 1) ≤ s ∧ s ≤ data.length)
    (hext : fl.ext = true → ∀ s, extSize (leAt data 0 2) (leAt data 4 4) = some s → extHdr (leAt data 0 2) ≤ s ∧ s ≤ data.length) :
    ∀ f, (addCap hasCb p pos fl data).2 ≠ .fault f :=
  addCap_total h.inv (fun hb => by have := h.size; rw [hb, if_pos rfl] at this; exact this) hpos h4 hstd hext

end Verif.Pci
