import Verif.Setup.Props
import Mathlib.Data.Nat.Bitwise

/-! # What a realized device shows of its set-up (C70) -/

namespace Verif.Setup
open Verif
open Verif.Region (Reg)

/-- The status register, the BARs and the interrupt pin. -/
def Filled (a : Nat) : Prop := a = 6 ∨ a = 7 ∨ 0x10 ≤ a ∧ a < 0x28 ∨ a = 0x3d

/-- The calls before `vfu_realize_ctx`, of which none stores into those registers. -/
def Spares : Call → Prop
  | .store off bytes => ∀ a, off ≤ a → a < off + bytes.length → ¬ Filled a
  | .realize _ _ => False
  | _ => True

theorem capability_header {c : Ctx} (h : Good c) {pos : Nat} {fl : Pci.CapFlags} {data : List Byte}
    (hu : CapUse c pos fl data) {a : Nat} (ha : a < 64) (h4 : a ≠ 0x34) : (capability c pos fl data).1.mem a = c.mem a := by
  have hi : Pci.Inv c.pci := by
    rcases h.cfg with ⟨h1, _⟩ | ⟨h4, _⟩
    · exact absurd h1 hu.space
    · exact h4
  have hnf := (capability_good h hu).2
  unfold capability at hnf ⊢
  dsimp only at hnf ⊢
  rw [if_neg (fun hc => hu.space hc.1)] at hnf ⊢
  dsimp only at hnf ⊢
  generalize hr : Pci.addCap c.cfgCb c.pci pos fl data = r at hnf
  obtain ⟨p', res⟩ := r
  cases res with
  | fault f => exact absurd rfl (hnf f)
  | err e => rw [Pci.C39_refused hr]; rfl
  | ok off =>
    cases hf : fl.ext with
    | false =>
      obtain ⟨s, _, _, _, _, hlo, _, _, hp⟩ := Pci.addStd_ok hi (Pci.addCap_std hf hr)
      rw [hp]
      dsimp only
      have hl := Pci.endLink_mem (c.pci.caps.map Pci.Cap.off) 0x34
      have hl : Pci.endLink 0x34 (c.pci.caps.map Pci.Cap.off) = 0x34 ∨ 64 ≤ Pci.endLink 0x34 (c.pci.caps.map Pci.Cap.off) := by
        rcases List.mem_cons.1 hl with hl | hl
        · exact .inl hl
        · rw [List.mem_map] at hl
          obtain ⟨o, ho, he⟩ := hl
          rw [List.mem_map] at ho
          obtain ⟨d, hd, ho⟩ := ho
          have := (hi.std d hd).lo
          exact .inr (by omega)
      rw [Pci.wrM_out (by omega), Pci.wrM_out (by simp; omega), Pci.wrM_out (by omega)]
      rfl
    | true =>
      obtain ⟨s, m', _, _, _, _, hlo, _, _, _, hp, hm⟩ := Pci.addExt_ok hi (Pci.addCap_ext hf hr)
      rw [hp]
      dsimp only
      rcases hm with ⟨_, _, rfl | rfl⟩ | ⟨_, rfl⟩
      · rw [Pci.setNext_out (by omega), Pci.wrM_out (by omega)]; rfl
      · rw [Pci.setNext_out (by omega), Pci.setNext_out (by omega), Pci.wrM_out (by omega)]; rfl
      · have hl := Pci.endHdr_mem (c.pci.exts.map Pci.Cap.off).tail 256
        have hl : 256 ≤ Pci.endHdr 256 (c.pci.exts.map Pci.Cap.off).tail := by
          rcases List.mem_cons.1 hl with hl | hl
          · omega
          · have hl := List.mem_of_mem_tail hl
            rw [List.mem_map] at hl
            obtain ⟨d, hd, ho⟩ := hl
            have := (hi.ext d hd).lo
            omega
        rw [Pci.setNext_out (by omega), Pci.setNext_out (by omega), Pci.wrM_out (by omega)]; rfl

/-- The registers are zero. -/
def Zero (c : Ctx) : Prop := ∀ a, Filled a → c.mem a = 0#8

theorem step_zero {c : Ctx} (h : Good c) (hz : Zero c) {k : Call} (hu : Use c k) (hs : Spares k) :
    Zero (step c k).1 ∧ (step c k).1.realized = c.realized := by
  cases k with
  | region alloc a =>
    unfold step
    dsimp only
    generalize Region.setup alloc c.tbl a = o
    obtain ⟨t, res⟩ := o
    cases res <;> exact ⟨hz, rfl⟩
  | ioeventfd shadow alloc idx s =>
    unfold step
    dsimp only
    generalize Region.createIoeventfd shadow alloc c.tbl idx s = o
    obtain ⟨t, res⟩ := o
    cases res <;> exact ⟨hz, rfl⟩
  | pciInit alloc type ht =>
    unfold step pciInit
    dsimp only
    split
    · exact ⟨hz, rfl⟩
    · split
      · exact ⟨hz, rfl⟩
      · split
        · exact ⟨hz, rfl⟩
        · split
          · exact ⟨hz, rfl⟩
          · split
            · exact ⟨hz, rfl⟩
            · exact ⟨fun a _ => rfl, rfl⟩
  | setId v d sv sd =>
    unfold step setId
    dsimp only
    split
    · exact ⟨hz, rfl⟩
    · refine ⟨fun a ha => ?_, rfl⟩
      dsimp only
      have ha' := ha
      unfold Filled at ha'
      rw [Pci.wrM_out (by simp [enc_length]; omega), Pci.wrM_out (by simp [enc_length]; omega)]
      exact hz a ha
  | setClass b s p =>
    unfold step setClass
    dsimp only
    split
    · exact ⟨hz, rfl⟩
    · refine ⟨fun a ha => ?_, rfl⟩
      dsimp only
      have ha' := ha
      unfold Filled at ha'
      rw [Pci.wrM_out (by simp; omega)]
      exact hz a ha
  | capability pos fl data =>
    refine ⟨fun a ha => ?_, ?_⟩
    · have ha' := ha
      unfold Filled at ha'
      change (capability c pos fl data).1.mem a = 0#8
      rw [capability_header h hu (by omega) (by omega)]
      exact hz a ha
    · unfold step capability
      dsimp only
      split <;> rfl
  | store off bytes =>
    unfold step store
    dsimp only
    split
    · exact ⟨hz, rfl⟩
    · refine ⟨fun a ha => ?_, rfl⟩
      dsimp only
      by_cases hin : off ≤ a ∧ a < off + bytes.length
      · exact absurd ha (hs a hin.1 hin.2)
      · rw [Pci.wrM_out (by omega)]
        exact hz a ha
  | nrIrqs t n => unfold step; dsimp only; split <;> exact ⟨hz, rfl⟩
  | irqStateCb t b => unfold step; dsimp only; split <;> exact ⟨hz, rfl⟩
  | quiesceCb b => exact ⟨hz, rfl⟩
  | resetCb b => exact ⟨hz, rfl⟩
  | dma alloc reg unreg => unfold step; dsimp only; split <;> exact ⟨hz, rfl⟩
  | migration alloc v cbs =>
    unfold step; dsimp only
    split
    · exact ⟨hz, rfl⟩
    · split
      · exact ⟨hz, rfl⟩
      · split <;> exact ⟨hz, rfl⟩
  | realize a b => cases hs

theorem run_zero {c : Ctx} (h : Good c) (hz : Zero c) {ks : List Call} (hu : UseRun c ks) (hs : ∀ k ∈ ks, Spares k) :
    Zero (run c ks).1 ∧ (run c ks).1.realized = c.realized := by
  induction ks generalizing c with
  | nil => exact ⟨hz, rfl⟩
  | cons k ks ih =>
    obtain ⟨h1, h2, h3⟩ := hu
    obtain ⟨s1, s2⟩ := step_good h h1 h2
    obtain ⟨z1, z2⟩ := step_zero h hz h2 (hs k (List.mem_cons_self ..))
    rw [run_cons s2]
    obtain ⟨i1, i2⟩ := ih s1 z1 h3 (fun k hk => hs k (List.mem_cons_of_mem _ hk))
    exact ⟨i1, i2.trans z2⟩

/-- Number of bits set by the flags of a region: 1 for I/O, 4 for 64 bits, 8 for prefetchable. -/
def barValue (flags : Nat) : Nat :=
  (if flags.testBit 2 then 0 else 1) + (if flags.testBit 4 then 4 else 0) + (if flags.testBit 5 then 8 else 0)

theorem and_two_pow_ne (n i : Nat) : n &&& 2 ^ i ≠ 0 ↔ n.testBit i = true := by
  rw [Nat.and_two_pow]
  cases n.testBit i <;> simp

theorem barByte_zero (flags : Nat) : barByte flags 0#8 = BitVec.ofNat 8 (barValue flags) ∧ barValue flags < 16 := by
  have h2 := and_two_pow_ne flags 2
  have h4 := and_two_pow_ne flags 4
  have h5 := and_two_pow_ne flags 5
  unfold barByte barValue
  simp only [Region.FLAG_MEM, FLAG_64, FLAG_PREFETCH] at *
  by_cases g2 : flags.testBit 2 = true <;> by_cases g4 : flags.testBit 4 = true <;> by_cases g5 : flags.testBit 5 = true <;>
    simp_all

theorem furnished_tbl {c : Ctx} (i : Nat) (hi : i < 7) : flagsOf (furnished c).tbl i = flagsOf c.tbl i := by
  have h1 : ∀ d : Ctx, (withSpace d).tbl = d.tbl := fun d => by unfold withSpace; split <;> rfl
  unfold furnished flagsOf
  rw [h1]
  unfold withRegion
  split
  · rfl
  · split
    · dsimp only
      rw [List.getElem?_set_ne (by omega)]
    · rfl

theorem furnished_same (c : Ctx) : (furnished c).cnt = c.cnt ∧ (furnished c).caps = c.caps ∧ (furnished c).exts = c.exts := by
  have h1 : ∀ d : Ctx, (withSpace d).cnt = d.cnt ∧ (withSpace d).caps = d.caps ∧ (withSpace d).exts = d.exts :=
    fun d => by unfold withSpace; split <;> exact ⟨rfl, rfl, rfl⟩
  have h2 : (withRegion c).cnt = c.cnt ∧ (withRegion c).caps = c.caps ∧ (withRegion c).exts = c.exts := by
    unfold withRegion
    split
    · exact ⟨rfl, rfl, rfl⟩
    · split <;> exact ⟨rfl, rfl, rfl⟩
  unfold furnished
  rw [(h1 _).1, (h1 _).2.1, (h1 _).2.2]
  exact h2

theorem furnished_zero {c : Ctx} (hz : Zero c) : Zero (furnished c) := by
  have h2 : (withRegion c).mem = c.mem := by
    unfold withRegion
    split
    · rfl
    · split <;> rfl
  unfold furnished withSpace
  split
  · exact fun a _ => rfl
  · intro a ha; rw [h2]; exact hz a ha

theorem furnished_mem {c : Ctx} (h : c.alloc ≠ 0) : (furnished c).mem = c.mem := by
  have h2 : (withRegion c).mem = c.mem ∧ (withRegion c).alloc = c.alloc := by
    unfold withRegion
    split
    · exact ⟨rfl, rfl⟩
    · split <;> exact ⟨rfl, rfl⟩
  unfold furnished withSpace
  rw [if_neg (by rw [h2.2]; exact h)]
  exact h2.1

/-- **C70**: the header that the first client of a realized device reads.  Each BAR shows the type given to
`vfu_setup_region` (a region nobody set up shows as I/O) with a zero address, the interrupt pin is INTA exactly if there are
INTx interrupts, the capability bit is set exactly if there is a standard capability, and the list of capabilities is
there; all other bytes are those of the set-up. -/
theorem C70_advertised (ks : List Call) (hu : UseRun create ks) (hs : ∀ k ∈ ks, Spares k) (a b : Bool) {c' : Ctx}
    (hr : step (run create ks).1 (.realize a b) = (c', .ok 0)) (dev : Pci.Dev) (hd : dev.cb = none) (buf : List Byte) :
    let c := (run create ks).1
    c'.realized = true ∧
    (∀ i, i < 6 → (Pci.access dev c'.pci buf 4 (0x10 + 4 * i) false).data = enc 4 (barValue (flagsOf c.tbl i))) ∧
    (Pci.access dev c'.pci buf 1 0x3d false).data = [if c.cnt 0 = 0 then 0#8 else 1#8] ∧
    (Pci.access dev c'.pci buf 2 6 false).data = enc 2 (if c.caps = [] then 0 else 16) ∧
    Pci.Walk c'.mem 0x34 (c.caps.map Pci.Cap.off) ∧ Pci.ExtList c'.mem (c.exts.map Pci.Cap.off) ∧
    (c.alloc ≠ 0 → ∀ x, ¬ Filled x → c'.mem x = c.mem x) := by
  intro c
  obtain ⟨h1, _, _⟩ := run_good good_create hu
  obtain ⟨z1, z2⟩ := run_zero good_create (fun a _ => rfl) hu hs
  have z2 : c.realized = false := z2
  obtain ⟨f1, f2, f3⟩ := furnished_good h1 z2
  change realize c a b = (c', .ok 0) at hr
  rcases realize_cases h1 z2 a b with ⟨d, _, _, e⟩ | e
  · rw [e] at hr; cases hr
  rw [e] at hr
  injection hr with hr _
  have hg := finished_good f1 f3
  rw [hr] at hg
  have hi : Pci.Inv c'.pci := by
    rcases hg.cfg with ⟨g, _⟩ | ⟨g, _⟩
    · rw [← hr] at g
      have f4 : 256 ≤ (furnished c).alloc := f3
      change (furnished c).alloc = 0 at g
      rw [g] at f4
      omega
    · exact g
  have hm : c'.pci.mem = finished (furnished c) := by rw [← hr]; rfl
  have hsz := hi.bnd.std
  have fz := furnished_zero z1
  obtain ⟨s1, s2, s3⟩ := furnished_same c
  have hc : c'.caps = c.caps ∧ c'.exts = c.exts := by rw [← hr]; exact ⟨s2, s3⟩
  refine ⟨by rw [← hr], ?_, ?_, ?_, ?_, ?_, ?_⟩
  · intro i hi6
    rw [(Pci.C38_read hd hi.bnd buf (by omega)).2.1, hm]
    obtain ⟨b1, b2⟩ := barByte_zero (flagsOf c.tbl i)
    have hf : ∀ x, 0x10 ≤ x → x < 0x28 → finished (furnished c) x = barLoop (furnished c).tbl 6 0 (furnished c).mem x := by
      intro x h1 h2
      unfold finished
      rw [setCl_keep _ _ _ (by omega), setPin_keep _ _ _ (by omega)]
    have hz : ∀ k, 1 ≤ k → k < 4 → finished (furnished c) (0x10 + 4 * i + k) = 0#8 := by
      intro k h1 h2
      rw [hf _ (by omega) (by omega), barLoop_out _ _ _ _ _ (fun j _ _ => by omega)]
      exact fz _ (.inr (.inr (.inl (by omega))))
    have h0 : finished (furnished c) (0x10 + 4 * i + 0) = BitVec.ofNat 8 (barValue (flagsOf c.tbl i)) := by
      rw [Nat.add_zero, hf _ (by omega) (by omega), barLoop_at _ _ _ _ _ (Nat.zero_le _) (by omega),
        fz _ (.inr (.inr (.inl (by omega)))), furnished_tbl i (by omega)]
      exact b1
    have hrd : Pci.rdM (finished (furnished c)) (0x10 + 4 * i) 4 =
        [BitVec.ofNat 8 (barValue (flagsOf c.tbl i)), 0#8, 0#8, 0#8] := by
      have : List.range 4 = [0, 1, 2, 3] := rfl
      unfold Pci.rdM
      rw [this]
      simp only [List.map_cons, List.map_nil]
      rw [h0, hz 1 (by omega) (by omega), hz 2 (by omega) (by omega), hz 3 (by omega) (by omega)]
    rw [hrd]
    generalize barValue (flagsOf c.tbl i) = v at b2
    revert b2; clear * -; revert v; decide
  · rw [(Pci.C38_read hd hi.bnd buf (by omega)).2.1, hm]
    change [finished (furnished c) 0x3d] = _
    congr 1
    unfold finished
    rw [setCl_keep _ _ _ (by omega)]
    unfold setPin
    rw [s1]
    change (if c.cnt 0 ≠ 0 then _ else _ : Pci.Mem) 0x3d = _
    by_cases h0 : c.cnt 0 = 0
    · rw [if_neg (by omega), if_pos h0, bars_keep _ _ _ (by omega)]
      exact fz _ (.inr (.inr (.inr rfl)))
    · rw [if_pos h0, if_neg h0]
      exact Pci.wrM_in (by omega) (by simp)
  · rw [(Pci.C38_read hd hi.bnd buf (by omega)).2.1, hm]
    change [finished (furnished c) 6, finished (furnished c) 7] = _
    have h7 : finished (furnished c) 7 = 0#8 := by
      unfold finished
      rw [setCl_keep _ _ _ (by omega), setPin_keep _ _ _ (by omega), bars_keep _ _ _ (by omega)]
      exact fz _ (.inr (.inl rfl))
    have h6 : setPin (furnished c) (barLoop (furnished c).tbl 6 0 (furnished c).mem) 6 = 0#8 := by
      rw [setPin_keep _ _ _ (by omega), bars_keep _ _ _ (by omega)]
      exact fz _ (.inl rfl)
    rw [h7]
    unfold finished setCl
    rw [s2]
    by_cases h0 : c.caps = []
    · rw [if_neg (by simpa using h0), if_pos h0, h6]; rfl
    · rw [if_pos h0, if_neg h0, h6]; rfl
  · have := hi.walk
    change Pci.Walk c'.mem 0x34 (c'.caps.map Pci.Cap.off) at this
    rw [hc.1] at this; exact this
  · have := hi.xwalk
    change Pci.ExtList c'.mem (c'.exts.map Pci.Cap.off) at this
    rw [hc.2] at this; exact this
  · intro ha x hx
    change c'.pci.mem x = _
    rw [hm]
    unfold Filled at hx
    unfold finished
    rw [setCl_keep _ _ _ (by omega), setPin_keep _ _ _ (by omega), bars_keep _ _ _ (by omega), furnished_mem ha]

end Verif.Setup
