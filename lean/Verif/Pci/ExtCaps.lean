import Verif.Pci.Caps

/-! # Extended capabilities; histories (C39, C40) -/

namespace Verif.Pci
open Verif

theorem extSize_lt {id w s : Nat} (hw : w < 2 ^ 32) (h : extSize id w = some s) : s < 4096 := by
  unfold extSize at h
  split at h
  · injection h; omega
  · split at h
    · injection h; omega
    · cases h

theorem ext_offs {p : Pci} (h : Inv p) : ∀ o ∈ p.exts.map Cap.off, o < p.size ∧ o + 4 ≤ p.alloc := by
  intro o ho
  rw [List.mem_map] at ho
  obtain ⟨c, hc, rfl⟩ := ho
  have h1 := h.ext c hc
  have h2 := extHdr_ge c.id
  have h3 := h1.hdr
  have h4 := h1.fits
  have h5 := h1.hi
  have h7 := h.bnd.alloc
  omega

theorem last_ext {p : Pci} (h : Inv p) (hal : 260 ≤ p.alloc) (hsz : 256 < p.size) :
    lastExt p 4097 256 = .ok (endHdr 256 (p.exts.map Cap.off).tail) := by
  have hx := h.xwalk
  have ho := ext_offs h
  have hn := h.next
  cases he : p.exts.map Cap.off with
  | nil =>
    rw [he] at hx
    exact lastExt_eq 4097 (.nil hx.2.2) (by simp) (by intro o ho; simp at ho; omega)
  | cons o l =>
    rw [he] at hx ho
    obtain ⟨rfl, _, hw⟩ := hx
    have hlen : (p.exts.map Cap.off).length = l.length + 1 := by rw [he]; rfl
    rw [List.length_map] at hlen
    rw [List.tail_cons]
    exact lastExt_eq 4097 hw (by omega) ho

theorem exts_first {p : Pci} (h : Inv p) : p.exts = [] ∧ extId p.mem 256 = 0 ∨ p.exts ≠ [] ∧ extId p.mem 256 ≠ 0 := by
  have hx := h.xwalk
  cases he : p.exts with
  | nil =>
    left
    rw [he] at hx
    refine ⟨rfl, ?_⟩
    unfold extId
    rw [rd2, hx.1, hx.2.1]
    rfl
  | cons c l =>
    right
    rw [he] at hx
    exact ⟨by simp, hx.2.1⟩

theorem endHdr_last {l : List Cap} {c : Cap} (hf : ∃ t, (l ++ [c]).map Cap.off = 256 :: t) :
    endHdr 256 ((l ++ [c]).map Cap.off).tail = c.off := by
  cases l with
  | nil =>
    obtain ⟨t, ht⟩ := hf
    simp only [List.nil_append, List.map_cons, List.map_nil, List.cons.injEq] at ht
    simp only [List.nil_append, List.map_cons, List.map_nil, List.tail_cons, endHdr]
    exact ht.1.symm
  | cons d l =>
    simp only [List.cons_append, List.map_cons, List.map_append, List.tail_cons, List.map_nil]
    exact endHdr_snoc _ _ _

/-- What a successful addition of an extended capability does. -/
theorem addExt_ok {p p' : Pci} (h : Inv p) {pos : Nat} {fl : CapFlags} {data : List Byte} {off : Nat}
    (ha : addExt p pos fl data = (p', .ok off)) :
    ∃ size m', extSize (leAt data 0 2) (leAt data 4 4) = some size ∧ p.exts.length ≠ 128 ∧ size ≤ data.length ∧
      off + size ≤ p.size ∧ 256 ≤ off ∧ off < p.size ∧
      (pos ≠ 0 → off = pos ∧ ∀ c ∈ p.all, Apart off size c) ∧
      (pos = 0 → p.exts = [] ∧ off = 256 ∨ ∃ l c, p.exts = l ++ [c] ∧ off = (c.off + c.size + 3) / 4 * 4) ∧
      p' = { p with mem := m', exts := p.exts ++ [⟨true, leAt data 0 2, off, extHdr (leAt data 0 2), size, fl.ro, fl.cbk⟩] } ∧
      (p.exts = [] ∧ off = 256 ∧ (m' = setNext (wrM p.mem off (data.take size)) off 0 ∨
          m' = setNext (setNext (wrM p.mem off (data.take size)) 256 off) off 0) ∨
        p.exts ≠ [] ∧ m' = setNext (setNext (wrM p.mem off (data.take size)) (endHdr 256 (p.exts.map Cap.off).tail) off) off 0) := by
  have hsm := h.bnd.small
  unfold addExt at ha
  split at ha
  · cases ha
  · split at ha
    · cases ha
    · rename_i hlen
      dsimp only at ha
      cases hs : extSize (leAt data 0 2) (leAt data 4 4) with
      | none => rw [hs] at ha; cases ha
      | some size =>
        rw [hs] at ha
        dsimp only at ha
        have hsl := extSize_lt (leAt_lt data 4 4) hs
        split at ha
        · cases ha
        · cases hp : extPlace p pos size with
          | err e => rw [hp] at ha; cases ha
          | fault f => rw [hp] at ha; cases ha
          | ok ol =>
            obtain ⟨o, link⟩ := ol
            rw [hp] at ha
            dsimp only at ha
            split at ha
            · cases ha
            · rename_i h1
              split at ha
              · cases ha
              · rename_i h2
                split at ha
                · cases ha
                · rename_i h3
                  have hadd : add64 o size = o + size := Nat.mod_eq_of_lt (by simp only [U64]; omega)
                  rw [hadd] at h1
                  have hpl : 256 ≤ o ∧ (pos ≠ 0 → o = pos ∧ ∀ c ∈ p.all, Apart o size c) ∧
                      (pos = 0 → p.exts = [] ∧ o = 256 ∨ ∃ l c, p.exts = l ++ [c] ∧ o = (c.off + c.size + 3) / 4 * 4) ∧
                      (p.exts = [] ∧ o = 256 ∧ (link = none ∨ link = some 256) ∨
                       p.exts ≠ [] ∧ link = some (endHdr 256 (p.exts.map Cap.off).tail)) := by
                    unfold extPlace at hp
                    split at hp
                    · cases hp
                    · rename_i hsz
                      split at hp
                      · cases hp
                      · rename_i hal
                        rw [last_ext h (by omega) (by omega)] at hp
                        dsimp only at hp
                        by_cases hpos : pos ≠ 0
                        · rw [if_pos hpos] at hp
                          split at hp
                          · cases hp
                          · rename_i h4
                            split at hp
                            · cases hp
                            · rename_i h5
                              split at hp
                              · cases hp
                              · rename_i h6
                                injection hp with hp; injection hp with e1 e2
                                subst e1
                                refine ⟨by omega, fun _ => ⟨rfl, ?_⟩, fun h => absurd h hpos, ?_⟩
                                · exact capFind_apart h.bnd (by simp only [U64]; omega) (by simpa using h5)
                                · rcases exts_first h with ⟨h7, h8⟩ | ⟨h7, h8⟩
                                  · left
                                    refine ⟨h7, by omega, .inr ?_⟩
                                    rw [← e2, h7]
                                    rfl
                                  · right
                                    exact ⟨h7, e2.symm⟩
                        · rw [if_neg hpos] at hp
                          rcases exts_first h with ⟨h7, h8⟩ | ⟨h7, h8⟩
                          · rw [if_pos h8] at hp
                            injection hp with hp; injection hp with e1 e2
                            exact ⟨by omega, fun h => absurd h hpos, fun _ => .inl ⟨h7, e1.symm⟩,
                              .inl ⟨h7, e1.symm, .inl e2.symm⟩⟩
                          · rw [if_neg h8] at hp
                            rcases List.eq_nil_or_concat p.exts with hnil | ⟨l, c, hlc⟩
                            · exact absurd hnil h7
                            · rw [List.concat_eq_append] at hlc
                              have hcm : c ∈ p.exts := by rw [hlc]; simp
                              have hok := h.ext c hcm
                              have hend : endHdr 256 (p.exts.map Cap.off).tail = c.off := by
                                have hx := h.xwalk
                                rw [hlc] at hx ⊢
                                apply endHdr_last
                                cases he : (l ++ [c]).map Cap.off with
                                | nil => simp at he
                                | cons o t =>
                                  rw [he] at hx
                                  exact ⟨t, by rw [hx.1]⟩
                              rw [hend] at hp
                              split at hp
                              · cases hp
                              · rw [hok.id, hok.size] at hp
                                injection hp with hp; injection hp with e1 e2
                                have h9 := hok.hi
                                have e3 : add64 c.off c.size = c.off + c.size := Nat.mod_eq_of_lt (by simp only [U64]; omega)
                                have e4 : add64 (c.off + c.size) 3 = c.off + c.size + 3 :=
                                  Nat.mod_eq_of_lt (by simp only [U64]; omega)
                                unfold up4 at e1
                                rw [e3, e4] at e1
                                have := hok.lo
                                exact ⟨by omega, fun h => absurd h hpos, fun _ => .inr ⟨l, c, hlc, e1.symm⟩,
                                  .inr ⟨h7, by rw [hend]; exact e2.symm⟩⟩
                  obtain ⟨hlo, hex, hau, hlk⟩ := hpl
                  cases hl : link with
                  | none =>
                    rw [hl] at ha
                    dsimp only at ha
                    injection ha with ha1 ha2
                    injection ha2 with ha2
                    subst ha2
                    refine ⟨size, _, rfl, hlen, by omega, by omega, hlo, by omega, hex, hau, ha1.symm, ?_⟩
                    rcases hlk with ⟨h4, h5, _⟩ | ⟨_, h5⟩
                    · exact .inl ⟨h4, h5, .inl rfl⟩
                    · rw [hl] at h5; cases h5
                  | some a =>
                    rw [hl] at ha
                    dsimp only at ha
                    split at ha
                    · cases ha
                    · injection ha with ha1 ha2
                      injection ha2 with ha2
                      subst ha2
                      refine ⟨size, _, rfl, hlen, by omega, by omega, hlo, by omega, hex, hau, ha1.symm, ?_⟩
                      rcases hlk with ⟨h4, h5, h6⟩ | ⟨h4, h5⟩
                      · rw [hl] at h6
                        rcases h6 with h6 | h6
                        · cases h6
                        · injection h6 with h6
                          subst h6
                          exact .inl ⟨h4, h5, .inr rfl⟩
                      · rw [hl] at h5
                        injection h5 with h5
                        subst h5
                        exact .inr ⟨h4, rfl⟩

theorem disj_snoc {cs es : List Cap} {x : Cap} (h : (cs ++ es).Pairwise (fun c d => Apart c.off c.size d))
    (hx : ∀ c ∈ cs ++ es, Apart x.off x.size c) : (cs ++ (es ++ [x])).Pairwise (fun c d => Apart c.off c.size d) := by
  rw [← List.append_assoc]
  exact pairwise_snoc h (fun y hy => apart_symm (hx y hy))

theorem Inv.addExt {p p' : Pci} (h : Inv p) {pos : Nat} {fl : CapFlags} {data : List Byte} {off size : Nat}
    (ha : addExt p pos fl data = (p', .ok off)) (hs : extSize (leAt data 0 2) (leAt data 4 4) = some size)
    (hfit : extHdr (leAt data 0 2) ≤ size) (hau : pos = 0 → ∀ c ∈ p.all, Apart off size c) :
    Inv p' := by
  obtain ⟨size', m', hs', hlen, hdl, hhi, hlo, hlt, hex, -, hp', hm'⟩ := addExt_ok h ha
  rw [hs] at hs'
  injection hs' with hs'
  subst hs'
  have hap : ∀ c ∈ p.all, Apart off size c := by
    by_cases hpos : pos = 0
    · exact hau hpos
    · exact (hex hpos).2
  clear hex hau
  have h4 := extHdr_ge (leAt data 0 2)
  have hno := h.next
  have hsm := h.bnd.small
  -- the changed header before the new one
  have hfacts : ∃ a, (p.exts = [] ∧ off = 256 ∧ a = off ∨ p.exts ≠ [] ∧ a = endHdr 256 (p.exts.map Cap.off).tail ∧
      (∃ c ∈ p.exts, c.off = a) ∧ extNext m' a = off) ∧
      (∀ x, (x < off ∨ off + size ≤ x) → (x < a + 2 ∨ a + 4 ≤ x) → m' x = p.mem x) ∧
      (∀ i, i < size → i < 2 ∨ 4 ≤ i → m' (off + i) = data.getD i 0#8) ∧ extNext m' off = 0 := by
    rcases hm' with ⟨h5, h6, h7⟩ | ⟨h5, h6⟩
    · subst h6
      refine ⟨256, .inl ⟨h5, rfl, rfl⟩, ?_, ?_, ?_⟩
      · intro x h8 h9
        rcases h7 with h7 | h7
        · rw [h7, setNext_out h9, wrM_out (by rw [List.length_take]; omega)]
        · rw [h7, setNext_out h9, setNext_out h9, wrM_out (by rw [List.length_take]; omega)]
      · intro i h8 h9
        rcases h7 with h7 | h7
        · rw [h7, setNext_out (by omega), wrM_in (by omega) (by rw [List.length_take]; omega), take_getD (by omega),
            show 256 + i - 256 = i by omega]
        · rw [h7, setNext_out (by omega), setNext_out (by omega), wrM_in (by omega) (by rw [List.length_take]; omega),
            take_getD (by omega), show 256 + i - 256 = i by omega]
      · rcases h7 with h7 | h7 <;> rw [h7] <;> exact extNext_set (by omega)
    · have hac : ∃ c ∈ p.exts, c.off = endHdr 256 (p.exts.map Cap.off).tail := by
        have hx := h.xwalk
        have := endHdr_mem (p.exts.map Cap.off).tail 256
        cases he : p.exts with
        | nil => exact absurd he h5
        | cons c l =>
          rw [he] at hx this
          simp only [List.map_cons, List.tail_cons] at this hx ⊢
          rw [← hx.1] at this
          have h9 : endHdr 256 (l.map Cap.off) ∈ (c :: l).map Cap.off := by rw [← hx.1]; exact this
          rw [List.mem_map] at h9
          exact h9
      obtain ⟨c, hc, hca⟩ := hac
      have hapc := hap c (mem_all_ext hc)
      have hok := h.ext c hc
      have h8 := hok.fits
      have h9 := hok.hdr
      have h10 := extHdr_ge c.id
      unfold Apart at hapc
      refine ⟨c.off, .inr ⟨h5, hca, ⟨c, hc, rfl⟩, ?_⟩, ?_, ?_, ?_⟩
      · rw [h6, ← hca]
        rw [extNext_congr (m := setNext (wrM p.mem off (data.take size)) c.off off)
          (fun x h11 h12 => setNext_out (by omega))]
        exact extNext_set (by omega)
      · intro x h11 h12
        rw [h6, ← hca, setNext_out (by omega), setNext_out h12, wrM_out (by rw [List.length_take]; omega)]
      · intro i h11 h12
        rw [h6, ← hca, setNext_out (by omega), setNext_out (by omega), wrM_in (by omega) (by rw [List.length_take]; omega),
          take_getD (by omega), show off + i - off = i by omega]
      · rw [h6]
        exact extNext_set (by omega)
  obtain ⟨a, hcase, hout, hin, hnext⟩ := hfacts
  clear hm'
  have ha256 : 256 ≤ a := by
    rcases hcase with ⟨_, h5, h6⟩ | ⟨_, _, ⟨c, hc, rfl⟩, _⟩
    · omega
    · exact (h.ext c hc).lo
  have hid : leAt data 0 2 = extId m' off := by
    unfold extId
    rw [rd2]
    have e0 := hin 0 (by omega) (by omega)
    have e1 := hin 1 (by omega) (by omega)
    rw [Nat.add_zero] at e0
    rw [e0, e1]
    simp [leAt]
  rw [hp']
  refine ⟨⟨h.bnd.alloc, h.bnd.small, h.bnd.std, ?_⟩, ?_, ?_, ?_, h.nstd, ?_, ?_, ?_⟩
  · intro c hc
    unfold Pci.all at hc
    dsimp only at hc ⊢
    rw [← List.append_assoc] at hc
    rcases List.mem_append.1 hc with hc | hc
    · exact h.bnd.caps c hc
    · rw [List.mem_singleton] at hc
      subst hc
      exact ⟨by dsimp only; omega, hhi⟩
  · intro c hc
    dsimp only at hc ⊢
    have hok := h.std c hc
    apply hok.congr
    intro x h5 h6
    have h7 := hok.fits
    have h8 := hok.hi
    exact hout x (by omega) (by omega)
  · intro c hc
    dsimp only at hc ⊢
    rcases List.mem_append.1 hc with hc | hc
    · have hok := h.ext c hc
      apply hok.congr
      intro x h5 h6 h7
      have h8 := hok.fits
      have hapc := hap c (mem_all_ext hc)
      unfold Apart at hapc
      refine hout x (by omega) ?_
      rcases hcase with ⟨h9, _, _⟩ | ⟨_, _, ⟨d, hd, h10⟩, _⟩
      · rw [h9] at hc; cases hc
      · have h11 := (h.ext d hd).fits
        have h12 := (h.ext d hd).hdr
        have h13 := extHdr_ge d.id
        rcases h.apart (mem_all_ext hc) (mem_all_ext hd) with h14 | h14
        · subst h14; omega
        · unfold Apart at h14; omega
    · rw [List.mem_singleton] at hc
      subst hc
      refine ⟨rfl, hlo, hhi, rfl, hfit, hid.symm, ?_⟩
      dsimp only
      by_cases hv : leAt data 0 2 = EXT_VNDR
      · have h8 : extHdr (leAt data 0 2) = 8 := by rw [hv]; rfl
        have e : leAt (rdM m' (off + 4) 4) 0 4 = leAt data 4 4 := by
          rw [rd4]
          rw [hin 4 (by omega) (by omega), show off + 4 + 1 = off + 5 by omega, show off + 4 + 2 = off + 6 by omega,
            show off + 4 + 3 = off + 7 by omega, hin 5 (by omega) (by omega), hin 6 (by omega) (by omega),
            hin 7 (by omega) (by omega)]
          simp [leAt]
        rw [e]
        exact hs
      · unfold extSize at hs ⊢
        rw [if_neg hv] at hs ⊢
        exact hs
  · exact disj_snoc (x := ⟨true, leAt data 0 2, off, extHdr (leAt data 0 2), size, fl.ro, fl.cbk⟩) h.disj
      (fun c hc => hap c hc)
  · dsimp only
    rw [List.length_append, List.length_singleton]
    clear hcase
    omega
  · dsimp only
    apply walk_congr h.walk
    intro x hx
    have hx256 : x < 256 := by
      rcases link_place h hx with rfl | ⟨c, hc, _, _, h7⟩
      · omega
      · have := (h.std c hc).hi; omega
    exact hout x (by omega) (by omega)
  · dsimp only
    rw [List.map_append]
    rcases hcase with ⟨h5, h6, h7⟩ | ⟨h5, h6, _, h7⟩
    · rw [h5]
      subst h6
      refine ⟨rfl, ?_, .nil hnext⟩
      rw [← hid]
      intro hz
      rw [hz] at hs
      simp [extSize, EXT_DSN, EXT_VNDR] at hs
    · have hx := h.xwalk
      have hnd := (offs_nodup h).2
      cases he : p.exts.map Cap.off with
      | nil => simp at he; exact absurd he h5
      | cons o t =>
        rw [he] at hx h6 hnd
        obtain ⟨rfl, hx2, hx3⟩ := hx
        simp only [List.tail_cons] at h6
        have hextout : ∀ c ∈ p.exts, ∀ x, c.off ≤ x → x < c.off + c.size → (x < a + 2 ∨ a + 4 ≤ x) → m' x = p.mem x := by
          intro c hc x h8 h9 h10
          have hapc := hap c (mem_all_ext hc)
          unfold Apart at hapc
          exact hout x (by omega) h10
        have hmemt : ∀ o ∈ (256 : Nat) :: t, ∃ c ∈ p.exts, c.off = o := by
          intro o ho
          rw [← he, List.mem_map] at ho
          exact ho
        have hnexto : ∀ x ∈ (256 : Nat) :: t, x ≠ a → extNext m' x = extNext p.mem x := by
          intro x hx hxa
          obtain ⟨c, hc, rfl⟩ := hmemt x hx
          have h8 := (h.ext c hc).fits
          have h9 := (h.ext c hc).hdr
          have h10 := extHdr_ge c.id
          apply extNext_congr
          intro y h11 h12
          refine hextout c hc y (by omega) (by omega) ?_
          obtain ⟨d, hd, hda⟩ := hmemt a (by rw [h6]; exact endHdr_mem t 256)
          have h13 := (h.ext d hd).fits
          have h14 := (h.ext d hd).hdr
          have h15 := extHdr_ge d.id
          rcases h.apart (mem_all_ext hc) (mem_all_ext hd) with h16 | h16
          · subst h16; exact absurd hda hxa
          · unfold Apart at h16; omega
        refine ⟨rfl, ?_, ?_⟩
        · obtain ⟨c, hc, hc'⟩ := hmemt 256 (List.mem_cons_self ..)
          have h8 := (h.ext c hc).fits
          have h9 := (h.ext c hc).hdr
          have h10 := extHdr_ge c.id
          rw [extId_congr (m := p.mem)]
          · exact hx2
          · intro x h11 h12
            exact hextout c hc x (by omega) (by omega) (by omega)
        · refine xwalk_snoc (o := off) hx3 hnd ?_ ?_ (by omega) hnext
          · intro x hx hx'
            rw [← h6] at hx'
            exact hnexto x hx hx'
          · rw [← h6]; exact h7

/-! ## Histories -/

theorem inv_init (big : Bool) (bar : Nat → Nat × Bool) : Inv (init big bar) := by
  refine ⟨⟨Nat.le_refl _, ?_, ?_, ?_⟩, ?_, ?_, List.Pairwise.nil, by simp [init], by simp [init], .nil rfl, ⟨rfl, rfl, by simp [extNext, init]; try decide⟩⟩
  · cases big <;> simp [init]
  · cases big <;> simp [init]
  · intro c hc; cases hc
  · intro c hc; cases hc
  · intro c hc; cases hc

theorem addCap_std {hasCb : Bool} {p p' : Pci} {pos : Nat} {fl : CapFlags} {data : List Byte} {off : Nat} (hf : fl.ext = false)
    (h : addCap hasCb p pos fl data = (p', .ok off)) : addStd p pos fl data = (p', .ok off) := by
  unfold addCap at h
  split at h
  · cases h
  · split at h
    · cases h
    · rw [if_neg (by simp [hf])] at h; exact h

theorem addCap_ext {hasCb : Bool} {p p' : Pci} {pos : Nat} {fl : CapFlags} {data : List Byte} {off : Nat} (hf : fl.ext = true)
    (h : addCap hasCb p pos fl data = (p', .ok off)) : addExt p pos fl data = (p', .ok off) := by
  unfold addCap at h
  split at h
  · cases h
  · split at h
    · cases h
    · exact h

/-- Histories of a config space: successful additions, in any order and number, with explicit offsets or automatic
placement, of capabilities at least as long as their header; standard ones inside the first 256 bytes; automatic
placement that does not land on an existing capability (it does not check). In between the device and the client may
change anything but the links and headers (`Keeps`). -/
inductive Reach (hasCb : Bool) : Pci → Prop
  | init (big : Bool) (bar : Nat → Nat × Bool) : Reach hasCb (init big bar)
  | std {p p' : Pci} {pos off size : Nat} {fl : CapFlags} {data : List Byte} : Reach hasCb p → fl.ext = false →
      addCap hasCb p pos fl data = (p', .ok off) → stdSize (leAt data 0 1) (leAt data 2 1) = some size →
      stdHdr (leAt data 0 1) ≤ size → off + size ≤ 256 → (pos = 0 → ∀ c ∈ p.all, Apart off size c) → Reach hasCb p'
  | ext {p p' : Pci} {pos off size : Nat} {fl : CapFlags} {data : List Byte} : Reach hasCb p → fl.ext = true →
      addCap hasCb p pos fl data = (p', .ok off) → extSize (leAt data 0 2) (leAt data 4 4) = some size →
      extHdr (leAt data 0 2) ≤ size → (pos = 0 → ∀ c ∈ p.all, Apart off size c) → Reach hasCb p'
  | other {p : Pci} {m' : Mem} : Reach hasCb p → Keeps p m' → Reach hasCb { p with mem := m' }

theorem Reach.inv {hasCb : Bool} {p : Pci} (h : Reach hasCb p) : Inv p := by
  induction h with
  | init big bar => exact inv_init big bar
  | std _ h1 h2 h3 h4 h5 h6 ih => exact ih.addStd (addCap_std h1 h2) h3 h4 h5 h6
  | ext _ h1 h2 h3 h4 h5 ih => exact ih.addExt (addCap_ext h1 h2) h3 h4 h5
  | other _ h1 ih => exact ih.keep h1

/-- The standard list visits exactly the added standard capabilities in the order of addition and ends; likewise the
extended list from 256. Each visited offset holds the id of the capability. -/
theorem C39_lists {hasCb : Bool} {p : Pci} (h : Reach hasCb p) :
    Walk p.mem 0x34 (p.caps.map Cap.off) ∧ ExtList p.mem (p.exts.map Cap.off) ∧
    (∀ c ∈ p.caps, (p.mem c.off).toNat = c.id) ∧ (∀ c ∈ p.exts, extId p.mem c.off = c.id) :=
  ⟨h.inv.walk, h.inv.xwalk, fun c hc => (h.inv.std c hc).id, fun c hc => (h.inv.ext c hc).id⟩

/-- A successful addition appends to the list that `C39_lists` speaks of, and nothing else changes the lists. -/
theorem C39_appends {hasCb : Bool} {p p' : Pci} (h : Reach hasCb p) {pos off : Nat} {fl : CapFlags} {data : List Byte}
    (ha : addCap hasCb p pos fl data = (p', .ok off)) :
    (fl.ext = false → p'.caps.map Cap.off = p.caps.map Cap.off ++ [off] ∧ p'.exts = p.exts) ∧
    (fl.ext = true → p'.exts.map Cap.off = p.exts.map Cap.off ++ [off] ∧ p'.caps = p.caps) := by
  refine ⟨?_, ?_⟩
  · intro hf
    obtain ⟨size, _, _, _, _, _, _, _, hp⟩ := addStd_ok h.inv (addCap_std hf ha)
    rw [hp]
    exact ⟨by rw [List.map_append]; rfl, rfl⟩
  · intro hf
    obtain ⟨size, m', _, _, _, _, _, _, _, _, hp, _⟩ := addExt_ok h.inv (addCap_ext hf ha)
    rw [hp]
    exact ⟨by rw [List.map_append]; rfl, rfl⟩

/-- A refused addition changes nothing. -/
theorem C39_refused {hasCb : Bool} {p p' : Pci} {pos e : Nat} {fl : CapFlags} {data : List Byte}
    (ha : addCap hasCb p pos fl data = (p', .err e)) : p' = p := by
  unfold addCap at ha
  split at ha
  · injection ha with h _; exact h.symm
  · split at ha
    · injection ha with h _; exact h.symm
    · split at ha
      · unfold addExt at ha
        split at ha
        · injection ha with h _; exact h.symm
        · split at ha
          · injection ha with h _; exact h.symm
          · dsimp only at ha
            split at ha
            · injection ha with h _; exact h.symm
            · split at ha
              · injection ha with h _; exact h.symm
              · split at ha
                · injection ha with h _; exact h.symm
                · injection ha with h _; exact h.symm
                · split at ha
                  · injection ha with h _; exact h.symm
                  · split at ha
                    · injection ha with _ h; cases h
                    · split at ha
                      · injection ha with _ h; cases h
                      · split at ha
                        · injection ha with _ h; cases h
                        · split at ha
                          · injection ha with _ h; cases h
                          · injection ha with _ h; cases h
      · unfold addStd at ha
        split at ha
        · injection ha with h _; exact h.symm
        · dsimp only at ha
          split at ha
          · injection ha with h _; exact h.symm
          · split at ha
            · injection ha with h _; exact h.symm
            · split at ha
              · injection ha with h _; exact h.symm
              · injection ha with h _; exact h.symm
              · split at ha
                · injection ha with h _; exact h.symm
                · split at ha
                  · injection ha with _ h; cases h
                  · split at ha
                    · injection ha with _ h; cases h
                    · injection ha with _ h; cases h

/-- The capabilities are pairwise disjoint, behind the header, and inside the config space. -/
theorem C40_disjoint {hasCb : Bool} {p : Pci} (h : Reach hasCb p) :
    p.all.Pairwise (fun c d => c.off + c.size ≤ d.off ∨ d.off + d.size ≤ c.off) ∧
    ∀ c ∈ p.all, 64 ≤ c.off ∧ c.off + c.size ≤ p.size :=
  ⟨h.inv.disj, h.inv.bnd.caps⟩

/-- An explicit offset is honoured, and is refused if it lies in the header or overlaps another capability. -/
theorem C40_explicit {hasCb : Bool} {p p' : Pci} (h : Reach hasCb p) {pos : Nat} {off : Nat} {fl : CapFlags} {data : List Byte}
    (hpos : pos ≠ 0) (ha : addCap hasCb p pos fl data = (p', .ok off)) :
    off = pos ∧ 64 ≤ pos ∧ ∃ c ∈ p'.all, c.off = pos ∧ pos + c.size ≤ p.size ∧
      ∀ d ∈ p.all, pos + c.size ≤ d.off ∨ d.off + d.size ≤ pos := by
  cases hf : fl.ext with
  | false =>
    obtain ⟨size, _, _, _, h1, h2, h3, _, hp⟩ := addStd_ok h.inv (addCap_std hf ha)
    obtain ⟨rfl, h4⟩ := h3 hpos
    refine ⟨rfl, h2, ⟨false, leAt data 0 1, off, stdHdr (leAt data 0 1), size, fl.ro, fl.cbk⟩, ?_, rfl, h1, h4⟩
    rw [hp]
    unfold Pci.all
    simp
  | true =>
    obtain ⟨size, m', _, _, _, h1, h2, _, h3, _, hp, _⟩ := addExt_ok h.inv (addCap_ext hf ha)
    obtain ⟨rfl, h4⟩ := h3 hpos
    refine ⟨rfl, by omega, ⟨true, leAt data 0 2, off, extHdr (leAt data 0 2), size, fl.ro, fl.cbk⟩, ?_, rfl, h1, h4⟩
    rw [hp]
    unfold Pci.all
    simp

/-- Capabilities in the order of their offsets, as automatic placement alone produces them. -/
def Asc (l : List Cap) : Prop := l.Pairwise (fun c d => c.off + c.size ≤ d.off)

theorem asc_last {l : List Cap} {c : Cap} (h : Asc (l ++ [c])) : ∀ d ∈ l ++ [c], d.off + d.size ≤ c.off + c.size := by
  unfold Asc at h
  rw [List.pairwise_append] at h
  intro d hd
  rcases List.mem_append.1 hd with hd | hd
  · have := h.2.2 d hd c (List.mem_singleton.2 rfl); omega
  · rw [List.mem_singleton] at hd; subst hd; omega

/-- If the standard capabilities are in the order of their offsets, automatic placement inside the first 256 bytes
overlaps nothing, and they stay in order. -/
theorem C40_auto_std {hasCb : Bool} {p p' : Pci} (h : Reach hasCb p) (hasc : Asc p.caps) {off size : Nat} {fl : CapFlags}
    {data : List Byte} (hf : fl.ext = false) (ha : addCap hasCb p 0 fl data = (p', .ok off))
    (hs : stdSize (leAt data 0 1) (leAt data 2 1) = some size) (hhi : off + size ≤ 256) :
    (∀ c ∈ p.all, Apart off size c) ∧ Asc p'.caps ∧ p'.exts = p.exts := by
  obtain ⟨size', hs', _, _, _, _, _, hau, hp⟩ := addStd_ok h.inv (addCap_std hf ha)
  rw [hs] at hs'
  injection hs' with hs'
  subst hs'
  have hle : ∀ c ∈ p.caps, c.off + c.size ≤ off := by
    rcases hau rfl with ⟨h1, _⟩ | ⟨l, c, h1, h2⟩
    · rw [h1]; intro c hc; cases hc
    · intro d hd
      rw [h1] at hd hasc
      have := asc_last hasc d hd
      omega
  refine ⟨?_, ?_, ?_⟩
  · intro c hc
    unfold Apart
    rcases List.mem_append.1 hc with hc | hc
    · exact .inr (hle c hc)
    · have := (h.inv.ext c hc).lo; omega
  · rw [hp]
    exact pairwise_snoc hasc (fun y hy => hle y hy)
  · rw [hp]

theorem C40_auto_ext {hasCb : Bool} {p p' : Pci} (h : Reach hasCb p) (hasc : Asc p.exts) {off size : Nat} {fl : CapFlags}
    {data : List Byte} (hf : fl.ext = true) (ha : addCap hasCb p 0 fl data = (p', .ok off))
    (hs : extSize (leAt data 0 2) (leAt data 4 4) = some size) :
    (∀ c ∈ p.all, Apart off size c) ∧ Asc p'.exts ∧ p'.caps = p.caps := by
  obtain ⟨size', m', hs', _, _, _, hlo, _, _, hau, hp, _⟩ := addExt_ok h.inv (addCap_ext hf ha)
  rw [hs] at hs'
  injection hs' with hs'
  subst hs'
  have hle : ∀ c ∈ p.exts, c.off + c.size ≤ off := by
    rcases hau rfl with ⟨h1, _⟩ | ⟨l, c, h1, h2⟩
    · rw [h1]; intro c hc; cases hc
    · intro d hd
      rw [h1] at hd hasc
      have := asc_last hasc d hd
      omega
  refine ⟨?_, ?_, ?_⟩
  · intro c hc
    unfold Apart
    rcases List.mem_append.1 hc with hc | hc
    · have := (h.inv.std c hc).hi; omega
    · exact .inr (hle c hc)
  · rw [hp]
    exact pairwise_snoc hasc (fun y hy => hle y hy)
  · rw [hp]

/-- Histories with automatic placement only need no proviso about overlaps. -/
inductive AutoReach (hasCb : Bool) : Pci → Prop
  | init (big : Bool) (bar : Nat → Nat × Bool) : AutoReach hasCb (init big bar)
  | std {p p' : Pci} {off size : Nat} {fl : CapFlags} {data : List Byte} : AutoReach hasCb p → fl.ext = false →
      addCap hasCb p 0 fl data = (p', .ok off) → stdSize (leAt data 0 1) (leAt data 2 1) = some size →
      stdHdr (leAt data 0 1) ≤ size → off + size ≤ 256 → AutoReach hasCb p'
  | ext {p p' : Pci} {off size : Nat} {fl : CapFlags} {data : List Byte} : AutoReach hasCb p → fl.ext = true →
      addCap hasCb p 0 fl data = (p', .ok off) → extSize (leAt data 0 2) (leAt data 4 4) = some size →
      extHdr (leAt data 0 2) ≤ size → AutoReach hasCb p'
  | other {p : Pci} {m' : Mem} : AutoReach hasCb p → Keeps p m' → AutoReach hasCb { p with mem := m' }

theorem C40_auto {hasCb : Bool} {p : Pci} (h : AutoReach hasCb p) : Reach hasCb p ∧ Asc p.caps ∧ Asc p.exts := by
  induction h with
  | init big bar => exact ⟨.init big bar, List.Pairwise.nil, List.Pairwise.nil⟩
  | std _ h1 h2 h3 h4 h5 ih =>
    obtain ⟨i1, i2, i3⟩ := ih
    obtain ⟨a1, a2, a3⟩ := C40_auto_std i1 i2 h1 h2 h3 h5
    exact ⟨.std i1 h1 h2 h3 h4 h5 (fun _ => a1), a2, by rw [a3]; exact i3⟩
  | ext _ h1 h2 h3 h4 ih =>
    obtain ⟨i1, i2, i3⟩ := ih
    obtain ⟨a1, a2, a3⟩ := C40_auto_ext i1 i3 h1 h2 h3
    exact ⟨.ext i1 h1 h2 h3 h4 (fun _ => a1), by rw [a3]; exact i2, a2⟩
  | other _ h1 ih => exact ⟨.other ih.1 h1, ih.2.1, ih.2.2⟩

/-- So does every history with explicit offsets only. -/
theorem C40_explicit_only {hasCb : Bool} {p p' : Pci} (h : Reach hasCb p) {pos off size : Nat} {fl : CapFlags} {data : List Byte}
    (hpos : pos ≠ 0) (ha : addCap hasCb p pos fl data = (p', .ok off)) :
    (fl.ext = false → stdSize (leAt data 0 1) (leAt data 2 1) = some size → stdHdr (leAt data 0 1) ≤ size → off + size ≤ 256 →
      Reach hasCb p') ∧
    (fl.ext = true → extSize (leAt data 0 2) (leAt data 4 4) = some size → extHdr (leAt data 0 2) ≤ size → Reach hasCb p') :=
  ⟨fun h1 h2 h3 h4 => .std h h1 ha h2 h3 h4 (fun h0 => absurd h0 hpos),
   fun h1 h2 h3 => .ext h h1 ha h2 h3 (fun h0 => absurd h0 hpos)⟩

/-! ## Client accesses keep the lists -/

theorem disj_of_inv {p : Pci} (h : Inv p) : Disj p := fun _ hc _ hd => h.apart hc hd

/-- Client accesses to the header, and accesses inside one capability, keep the lists (given that the device's own
callbacks do not touch other bytes, and either handle no accesses, or none of a capability and none at its end). -/
theorem C39_client {hasCb : Bool} {dev : Dev} (hd : Local dev) (hh : Honest dev) {p : Pci} (h : Reach hasCb p) {r : Req}
    (hok : Req.ok p r) (hc : 0 < r.count) (hw : r.write = true)
    (hin : r.off + r.count ≤ 64 ∨ ∃ c ∈ p.all, Inside c r.off r.count ∧ c.cbk = false ∧
      (dev.cb = none ∨ ∀ d ∈ p.all, d.off ≠ r.off + r.count)) :
    Reach hasCb (p.after dev r) := by
  have hb := h.inv.bnd
  have hsm := hb.small
  have hlt : r.off + r.count < U64 := by have := hok.2; simp only [U64]; omega
  have hl := hok.1 hw
  refine .other h ⟨?_, ?_, ?_⟩
  · exact loop_ro hd hh hb r.write (by unfold roHdr; omega) r.count p.mem r.buf r.count r.off 0 hok.1 hlt
  · intro c hcm a h1 h2
    have hcl := (hb.caps c hcm).1
    have hfit : c.hdr ≤ c.size := by
      rcases List.mem_append.1 hcm with hx | hx
      · exact (h.inv.std c hx).fits
      · exact (h.inv.ext c hx).fits
    rcases hin with hin | ⟨d, hdm, hi, hk, hq⟩
    · exact C45_frame hd hh hb hok.1 hlt (by omega)
    · by_cases hcd : c = d
      · subst hcd
        rw [hw]
        exact (C41_contained hd hh hb (disj_of_inv h.inv) hcm hc hl hi hq).2.1 hk a h1 h2
      · rcases h.inv.apart hcm hdm with h3 | h3
        · exact absurd h3 hcd
        · unfold Apart at h3
          obtain ⟨hi1, hi2⟩ := hi
          exact C45_frame hd hh hb hok.1 hlt (by omega)
  · intro he a h1 h2
    rcases hin with hin | ⟨d, hdm, ⟨hi1, hi2⟩, _⟩
    · exact C45_frame hd hh hb hok.1 hlt (by omega)
    · rcases List.mem_append.1 hdm with hx | hx
      · have := (h.inv.std d hx).hi
        exact C45_frame hd hh hb hok.1 hlt (by omega)
      · rw [he] at hx; cases hx

end Verif.Pci
