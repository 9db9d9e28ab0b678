import Verif.Server.Migrate
import Verif.Server.Access
import Verif.Server.Crashes

/-!
# What the device says it can do, it can do (C91)

DEVICE_FEATURE (16) carries a word of flags: the number of the feature, and GET (bit 16), SET (bit 17), PROBE (bit 18). -/

namespace Verif.Server
open Verif
open Verif.Dma (Fd)

/-- The features of the protocol that the library knows, and whether they can be read and set: migration (1), migration
state (2), dirty page logging: start (6), stop (7), report (8). -/
def feats : Nat → Option (Bool × Bool)
  | 1 => some (true, false)
  | 2 => some (true, true)
  | 6 => some (false, true)
  | 7 => some (false, true)
  | 8 => some (true, false)
  | _ => none

/-- The word names a known feature, and nothing that cannot be done with it. -/
def Offered (w : Nat) : Prop :=
  ∃ g s, feats (w % 65536) = some (g, s) ∧ (w.testBit 16 = true → g = true) ∧ (w.testBit 17 = true → s = true) ∧
    ∀ i, 19 ≤ i → w.testBit i = false

/-- Without PROBE, it must be one of GET and SET. -/
def Single (w : Nat) : Prop := w.testBit 18 = true ∨ w.testBit 16 ≠ w.testBit 17

theorem high_bit (w i : Nat) : (w - w % 65536).testBit i = (decide (16 ≤ i) && w.testBit i) := by
  have e : w - w % 65536 = w / 2 ^ 16 * 2 ^ 16 := by omega
  rw [e, Nat.testBit_mul_two_pow, Nat.testBit_div_two_pow]
  by_cases h : 16 ≤ i
  · simp only [h, decide_true, Bool.true_and]
    congr 1
    omega
  · simp [h]

theorem mask_iff {sup w : Nat} (h : ∀ i, sup.testBit i = true → 16 ≤ i) :
    (w &&& sup = w - w % 65536) ↔ ∀ i, 16 ≤ i → w.testBit i = true → sup.testBit i = true := by
  constructor
  · intro he i hi hw
    have := congrArg (fun x => x.testBit i) he
    simp only [Nat.testBit_and, high_bit, hi, decide_true, Bool.true_and, hw] at this
    exact this
  · intro hi
    apply Nat.eq_of_testBit_eq
    intro i
    rw [Nat.testBit_and, high_bit]
    by_cases h16 : 16 ≤ i
    · cases hw : w.testBit i with
      | false => simp
      | true => simp [hi i h16 hw, h16]
    · have : sup.testBit i = false := by
        cases hs : sup.testBit i with
        | false => rfl
        | true => exact absurd (h i hs) h16
      simp [this, h16]

theorem sup_bit {sup : Nat} (hs : sup = 0x50000 ∨ sup = 0x70000 ∨ sup = 0x60000) (i : Nat) :
    sup.testBit i = (decide (i = 16) && sup.testBit 16 || decide (i = 17) && sup.testBit 17 || decide (i = 18)) := by
  by_cases h : i < 19
  · have : ∀ j : Fin 19, ∀ s ∈ [0x50000, 0x70000, 0x60000], (s : Nat).testBit j.val =
        (decide (j.val = 16) && s.testBit 16 || decide (j.val = 17) && s.testBit 17 || decide (j.val = 18)) := by decide +kernel
    exact this ⟨i, h⟩ sup (by simpa using hs)
  · have h2 : sup < 2 ^ i := Nat.lt_of_lt_of_le (by rcases hs with rfl | rfl | rfl <;> decide) (Nat.pow_le_pow_right (n := 2) (i := 19) (by decide) (by omega))
    rw [Nat.testBit_lt_two_pow h2]
    have : i ≠ 16 ∧ i ≠ 17 ∧ i ≠ 18 := by omega
    simp [this]

theorem mask_offered {sup w : Nat} (hs : sup = 0x50000 ∨ sup = 0x70000 ∨ sup = 0x60000) :
    (w &&& sup = w - w % 65536) ↔ (w.testBit 16 = true → sup.testBit 16 = true) ∧ (w.testBit 17 = true → sup.testBit 17 = true) ∧
      ∀ i, 19 ≤ i → w.testBit i = false := by
  rw [mask_iff]
  · constructor
    · intro h
      refine ⟨h 16 (by decide), h 17 (by decide), fun i hi => ?_⟩
      cases hw : w.testBit i with
      | false => rfl
      | true =>
        have := h i (by omega) hw
        rw [sup_bit hs] at this
        have hne : i ≠ 16 ∧ i ≠ 17 ∧ i ≠ 18 := by omega
        simp [hne] at this
    · rintro ⟨h1, h2, h3⟩ i hi hw
      by_cases e1 : i = 16
      · subst e1; exact h1 hw
      by_cases e2 : i = 17
      · subst e2; exact h2 hw
      by_cases e3 : i = 18
      · subst e3; rw [sup_bit hs]; simp
      · rw [h3 i (by omega)] at hw; cases hw
  · intro i hi
    rw [sup_bit hs] at hi
    simp only [Bool.or_eq_true, Bool.and_eq_true, decide_eq_true_eq] at hi
    omega

theorem supported_feats (n f : Nat) :
    (feats f = none ∧ Mig.supported (some n) f = 0) ∨
    ∃ g s, feats f = some (g, s) ∧ (Mig.supported (some n) f = 0x50000 ∨ Mig.supported (some n) f = 0x70000 ∨
      Mig.supported (some n) f = 0x60000) ∧ (Mig.supported (some n) f).testBit 16 = g ∧ (Mig.supported (some n) f).testBit 17 = s := by
  by_cases h1 : f = 1
  · subst h1
    exact .inr ⟨true, false, rfl, .inl rfl, (by decide : Nat.testBit 0x50000 16 = true), (by decide : Nat.testBit 0x50000 17 = false)⟩
  by_cases h2 : f = 2
  · subst h2
    exact .inr ⟨true, true, rfl, .inr (.inl rfl), (by decide : Nat.testBit 0x70000 16 = true), (by decide : Nat.testBit 0x70000 17 = true)⟩
  by_cases h6 : f = 6
  · subst h6
    exact .inr ⟨false, true, rfl, .inr (.inr rfl), (by decide : Nat.testBit 0x60000 16 = false), (by decide : Nat.testBit 0x60000 17 = true)⟩
  by_cases h7 : f = 7
  · subst h7
    exact .inr ⟨false, true, rfl, .inr (.inr rfl), (by decide : Nat.testBit 0x60000 16 = false), (by decide : Nat.testBit 0x60000 17 = true)⟩
  by_cases h8 : f = 8
  · subst h8
    exact .inr ⟨true, false, rfl, .inl rfl, (by decide : Nat.testBit 0x50000 16 = true), (by decide : Nat.testBit 0x50000 17 = false)⟩
  · left
    refine ⟨?_, ?_⟩
    · unfold feats
      split <;> first | rfl | contradiction
    · unfold Mig.supported
      dsimp only
      rw [if_neg (by simp only [Mig.FEAT_MIGRATION, Mig.FEAT_LOG_REPORT]; omega), if_neg (by simp only [Mig.FEAT_STATE]; omega),
        if_neg (by simp only [Mig.FEAT_LOG_START, Mig.FEAT_LOG_STOP]; omega)]

theorem offered_iff (n w : Nat) :
    (w &&& Mig.supported (some n) (w % 65536) ≠ w - w % 65536 ∨ Mig.supported (some n) (w % 65536) = 0) ↔ ¬ Offered w := by
  rcases supported_feats n (w % 65536) with ⟨h1, h2⟩ | ⟨g, s, h1, h2, h3, h4⟩
  · refine ⟨fun _ => ?_, fun _ => .inr h2⟩
    rintro ⟨g, s, h, _⟩
    rw [h1] at h
    cases h
  · have h0 : Mig.supported (some n) (w % 65536) ≠ 0 := by rcases h2 with h | h | h <;> rw [h] <;> decide
    have : Offered w ↔ w &&& Mig.supported (some n) (w % 65536) = w - w % 65536 := by
      rw [mask_offered h2, h3, h4]
      constructor
      · rintro ⟨g', s', e, r⟩
        rw [h1] at e
        cases e
        exact r
      · exact fun r => ⟨g, s, h1, r⟩
    rw [this]
    tauto

/-- The operation among the flags, for a word without unknown bits. -/
theorem ops_get {w : Nat} (h : ∀ i, 19 ≤ i → w.testBit i = false) :
    (w - w % 65536 = 0x10000 ↔ w.testBit 16 = true ∧ w.testBit 17 = false ∧ w.testBit 18 = false) ∧
    (w - w % 65536 = 0x20000 ↔ w.testBit 16 = false ∧ w.testBit 17 = true ∧ w.testBit 18 = false) ∧
    ((w - w % 65536) &&& 0x40000 = 0 ↔ w.testBit 18 = false) := by
  have hw : w < 2 ^ 19 := Nat.lt_pow_two_of_testBit w (fun i hi => h i hi)
  have e : ∀ k, w.testBit k = decide (w / 2 ^ k % 2 = 1) := fun k => Nat.testBit_eq_decide_div_mod_eq
  refine ⟨?_, ?_, ?_⟩
  · rw [e, e, e]
    simp only [decide_eq_true_eq, decide_eq_false_iff_not]
    omega
  · rw [e, e, e]
    simp only [decide_eq_true_eq, decide_eq_false_iff_not]
    omega
  · have h1 : (w - w % 65536) &&& 2 ^ 18 = if w.testBit 18 then 2 ^ 18 else 0 := by
      apply Nat.eq_of_testBit_eq
      intro i
      rw [Nat.testBit_and, high_bit]
      by_cases hi : 18 = i
      · subst hi
        cases w.testBit 18
        · simp
        · rw [if_pos rfl]; simp
      · rw [Nat.testBit_two_pow]
        cases w.testBit 18
        · simp [hi]
        · rw [if_pos rfl, Nat.testBit_two_pow]; simp [hi]
    rw [show (0x40000 : Nat) = 2 ^ 18 from rfl, h1]
    cases w.testBit 18 <;> simp

/-! ## The replies -/

section
variable {cfg : Cfg} (ht : TableOk cfg.tbl) {env : Env} {st : St} {m : Msg} (hn : Next cfg env st m)
include ht hn

/-- A request that neither changes the state nor calls the device, from the handler to the reply. -/
theorem feature_answer (hc : m.hdr.cmd = 16) {r : Res (List Byte)} {l : List Byte} {e : Nat}
    (hf : Mig.handleFeature env.feat { mig := st.mig, dma := st.dma } m.body = ({ mig := st.mig, dma := st.dma }, r, []))
    (hr : r = .ok l ∧ e = 0 ∨ r = .err e ∧ e < U32 ∧ featureErrOut env (ready cfg st m) m.body = .bytes l) :
    let o := call cfg st (.run env (.req m.hdr m.body m.fds))
    Answered m e l o ∧ calls o.evs = before cfg st m ∧ Same4 o.st st := by
  intro o
  have hex : exec cfg env (ready cfg st m) m = Done.pure (ready cfg st m) m.fds r (featureErrOut env (ready cfg st m) m.body) [] := by
    rw [exec_feature hc]
    unfold feature
    have : Mig.handleFeature env.feat { mig := (ready cfg st m).mig, dma := (ready cfg st m).dma } m.body =
      ({ mig := st.mig, dma := st.dma }, r, []) := hf
    rw [this]
    rfl
  have hnf : (exec cfg env (ready cfg st m) m).res.isFault = false := by
    rw [hex]
    rcases hr with ⟨h, _⟩ | ⟨h, _⟩ <;> rw [h] <;> rfl
  obtain ⟨l', sv⟩ := hn.served ht hnf
  have h1 := sv.out
  have h2 := sv.tables
  have h3 := sv.reply
  have h4 := sv.calls
  rw [hex] at h1 h2 h3 h4
  have hl : l' = l ∧ replyErr (Done.pure (ready cfg st m) m.fds r (featureErrOut env (ready cfg st m) m.body) []).res % U32 = e := by
    rcases hr with ⟨h, he⟩ | ⟨h, he, ho⟩
    · rw [h] at h1 ⊢
      cases h1
      exact ⟨rfl, by rw [he]; rfl⟩
    · rw [h] at h1 ⊢
      have h1' : featureErrOut env (ready cfg st m) m.body = .bytes l' := h1
      rw [ho] at h1'
      cases h1'
      exact ⟨rfl, Nat.mod_eq_of_lt he⟩
  rw [hl.1, hl.2] at h3
  exact ⟨h3, by rw [h4]; exact List.append_nil _, ⟨h2.mig, h2.dma, h2.irqs, h2.pci⟩⟩

/-- **C91.** What is not offered is refused, changes nothing and does not reach the device: without migration support
every feature; unknown features; operations a feature does not have; unknown flags; no operation; two without PROBE. -/
theorem C91_refused (hc : m.hdr.cmd = 16)
    (h : st.mig = none ∨ m.body.length < 8 ∨ ¬ Offered (leAt m.body 4 4) ∨ ¬ Single (leAt m.body 4 4)) :
    let o := call cfg st (.run env (.req m.hdr m.body m.fds))
    Answered m EINVAL [] o ∧ calls o.evs = before cfg st m ∧ Same4 o.st st := by
  have hmig : (ready cfg st m).mig = st.mig := rfl
  by_cases hl : m.body.length < 8
  · refine feature_answer ht hn hc (r := .err EINVAL) ?_ (.inr ⟨rfl, by decide, ?_⟩)
    · unfold Mig.handleFeature; rw [if_pos hl]
    · unfold featureErrOut; rw [if_pos hl]
  by_cases hx : leAt m.body 4 4 &&& Mig.supported st.mig (leAt m.body 4 4 % 65536) ≠ leAt m.body 4 4 - leAt m.body 4 4 % 65536 ∨
      Mig.supported st.mig (leAt m.body 4 4 % 65536) = 0
  · refine feature_answer ht hn hc (r := .err EINVAL) ?_ (.inr ⟨rfl, by decide, ?_⟩)
    · unfold Mig.handleFeature; rw [if_neg hl]; dsimp only; rw [if_pos hx]
    · unfold featureErrOut; rw [if_neg hl, hmig]; dsimp only; rw [if_pos hx]
  cases hm : st.mig with
  | none => rw [hm] at hx; exact absurd (.inr rfl) hx
  | some n =>
    have hof : Offered (leAt m.body 4 4) := by
      by_contra hno
      rw [hm] at hx
      exact hx ((offered_iff n _).2 hno)
    have hsg : ¬ Single (leAt m.body 4 4) := by
      rcases h with h | h | h | h
      · rw [hm] at h; cases h
      · exact absurd h hl
      · exact absurd hof h
      · exact h
    unfold Single at hsg
    simp only [not_or, Bool.not_eq_true, ne_eq, not_not] at hsg
    obtain ⟨_, _, _, _, _, hhi⟩ := hof
    obtain ⟨o1, o2, o3⟩ := ops_get hhi
    have g1 : ¬ (leAt m.body 4 4 - leAt m.body 4 4 % 65536 = Mig.F_GET) := by
      intro he
      have := o1.1 he
      rw [this.1, this.2.1] at hsg
      exact absurd hsg.2 (by decide)
    have g2 : ¬ (leAt m.body 4 4 - leAt m.body 4 4 % 65536 = Mig.F_SET) := by
      intro he
      have := o2.1 he
      rw [this.1, this.2.1] at hsg
      exact absurd hsg.2 (by decide)
    have g3 : (leAt m.body 4 4 - leAt m.body 4 4 % 65536) &&& Mig.F_PROBE = 0 := o3.2 hsg.1
    refine feature_answer ht hn hc (r := .err EINVAL) ?_ (.inr ⟨rfl, by decide, ?_⟩)
    · unfold Mig.handleFeature; rw [if_neg hl]; dsimp only; rw [if_neg hx, hm]; dsimp only
      rw [if_neg g1, if_neg g2]
      unfold Mig.featProbe
      rw [if_pos g3]
    · unfold featureErrOut; rw [if_neg hl, hmig]; dsimp only
      rw [if_neg hx, if_neg g1, if_neg g2, if_pos (.inl g3)]

/-- **C91.** Asking whether a feature, and which operations, are available: the request comes back with success exactly if
they are offered; nothing changes, and the device is not even quiesced. -/
theorem C91_probe (hc : m.hdr.cmd = 16) (hm : st.mig ≠ none) (hl : 8 ≤ m.body.length) (hz : m.body.length ≤ leAt m.body 0 4)
    (hp : (leAt m.body 4 4).testBit 18 = true) :
    let o := call cfg st (.run env (.req m.hdr m.body m.fds))
    (Offered (leAt m.body 4 4) → Answered m 0 m.body o) ∧ (¬ Offered (leAt m.body 4 4) → Answered m EINVAL [] o) ∧
      calls o.evs = [] ∧ Same4 o.st st := by
  intro o
  have hb : before cfg st m = [] := by
    unfold before
    rw [if_neg]
    unfold needsQuiesce
    by_cases h1 : cfg.hasQuiesce = false
    · rw [if_pos h1]; simp
    have hnz : ¬ leAt m.body 4 4 &&& Mig.F_PROBE = 0 := by
      intro he
      have := congrArg (fun x => x.testBit 18) he
      simp only [Nat.testBit_and, hp] at this
      exact absurd this (by decide)
    rw [if_neg h1, if_neg (by rw [hc]; decide), if_neg (by rw [hc]; decide), if_neg (by rw [hc]; decide), if_pos (show m.hdr.cmd = Wire.CMD_FEATURE from hc), if_neg (by omega),
      decide_eq_false (fun h => hnz h.2)]
    simp
  by_cases hof : Offered (leAt m.body 4 4)
  · obtain ⟨n, hm⟩ := Option.ne_none_iff_exists'.1 hm
    have hx : ¬ (leAt m.body 4 4 &&& Mig.supported st.mig (leAt m.body 4 4 % 65536) ≠ leAt m.body 4 4 - leAt m.body 4 4 % 65536 ∨
        Mig.supported st.mig (leAt m.body 4 4 % 65536) = 0) := by
      rw [hm]
      exact fun h => (offered_iff n _).1 h hof
    obtain ⟨_, _, _, _, _, hhi⟩ := id hof
    obtain ⟨o1, o2, o3⟩ := ops_get hhi
    have g1 : ¬ (leAt m.body 4 4 - leAt m.body 4 4 % 65536 = Mig.F_GET) := by
      intro he
      have := (o1.1 he).2.2
      rw [hp] at this; cases this
    have g2 : ¬ (leAt m.body 4 4 - leAt m.body 4 4 % 65536 = Mig.F_SET) := by
      intro he
      have := (o2.1 he).2.2
      rw [hp] at this; cases this
    have g3 : ¬ (leAt m.body 4 4 - leAt m.body 4 4 % 65536) &&& Mig.F_PROBE = 0 := by
      intro he
      have := o3.1 he
      rw [hp] at this; cases this
    have h := feature_answer ht hn hc (r := .ok m.body) (l := m.body) (e := 0) (by
      unfold Mig.handleFeature; rw [if_neg (by omega)]; dsimp only; rw [if_neg hx, hm]; dsimp only
      rw [if_neg g1, if_neg g2]
      unfold Mig.featProbe
      rw [if_neg g3, if_neg (by omega), if_neg (by show ¬ env.alloc = false; rw [hn.fair.alloc]; simp)]) (.inl ⟨rfl, rfl⟩)
    exact ⟨fun _ => h.1, fun h => absurd hof h, h.2.1.trans hb, h.2.2⟩
  · have h := C91_refused ht hn hc (.inr (.inr (.inl hof)))
    exact ⟨fun h => absurd h hof, fun _ => h.1, h.2.1.trans hb, h.2.2⟩

/-- The answer to the question what kind of migration the device supports. -/
theorem migration_answer (hc : m.hdr.cmd = 16) (hm : st.mig ≠ none) (hl : 8 ≤ m.body.length) (hf : leAt m.body 4 4 = 0x10001)
    (hz : 16 ≤ leAt m.body 0 4) :
    let o := call cfg st (.run env (.req m.hdr m.body m.fds))
    Answered m 0 (enc 4 16 ++ enc 4 0x10001 ++ enc 8 5) o ∧ calls o.evs = before cfg st m ∧ Same4 o.st st := by
  obtain ⟨n, hm⟩ := Option.ne_none_iff_exists'.1 hm
  refine feature_answer ht hn hc (r := .ok (enc 4 16 ++ enc 4 0x10001 ++ enc 8 5)) ?_ (.inl ⟨rfl, rfl⟩)
  have hs : Mig.supported (some n) (0x10001 % 65536) = 0x50000 := rfl
  unfold Mig.handleFeature
  rw [if_neg (by omega)]
  dsimp only
  rw [hf, hm, hs, if_neg (by decide)]
  dsimp only
  rw [if_pos (by decide)]
  unfold Mig.featGet
  rw [if_pos (by decide)]
  unfold Mig.migGet
  rw [if_neg (by omega), if_neg (by show ¬ env.alloc = false; rw [hn.fair.alloc]; simp)]
  rfl

/-- **C91.** The device says which kinds of migration it supports: bit 0 of the answer is STOP_COPY (state 3), bit 1
peer-to-peer (state 5), bit 2 PRE_COPY (state 6).  A client that asks a running, willing device for the state is served if
the bit is set and refused if not; it is refused for an absent bit in every other state, too. -/
theorem C91_migration (hc : m.hdr.cmd = 16) (hm : st.mig ≠ none) (hl : 8 ≤ m.body.length) (hf : leAt m.body 4 4 = 0x10001)
    (hz : 16 ≤ leAt m.body 0 4) :
    ∃ caps, Answered m 0 (enc 4 16 ++ enc 4 0x10001 ++ enc 8 caps) (call cfg st (.run env (.req m.hdr m.body m.fds))) ∧
      caps < 2 ^ 64 ∧ ∀ b t, (b, t) ∈ [(0, 3), (1, 5), (2, 6)] → ∀ {env' : Env} {st' : St} {m' : Msg} {a : Mig.MSt}, Next cfg env' st' m' →
        st'.mig = some a.num → m'.setsState → leAt m'.body 8 4 = t → 12 ≤ m'.body.length → m'.body.length ≤ leAt m'.body 0 4 →
        (∀ k, env'.migCb k = none) →
        let o := call cfg st' (.run env' (.req m'.hdr m'.body m'.fds))
        (caps.testBit b = true → a = .running → Answered m' 0 m'.body o ∧ o.st.mig = some t) ∧
        (caps.testBit b = false → (∃ l, Answered m' EINVAL l o) ∧ o.st.mig = st'.mig) := by
  refine ⟨5, (migration_answer ht hn hc hm hl hf hz).1, by decide, ?_⟩
  intro b t hbt env' st' m' a hn' ha hs ht' hl' hz' hw o
  have hset := C75_set ht hn' ha hs hl' hz' (by
    rw [ht']
    simp only [List.mem_cons, List.not_mem_nil, or_false, Prod.mk.injEq] at hbt
    omega) (fun k e h => by rw [hw k] at h; cases h)
  dsimp only at hset
  simp only [List.mem_cons, List.not_mem_nil, or_false, Prod.mk.injEq] at hbt
  rw [ht'] at hset
  rcases hset with ⟨c, p, h1, _, _, h2⟩ | ⟨h1, h2⟩ | ⟨q, c, x, e, _, _, _, h1, _⟩
  · refine ⟨fun _ _ => ⟨h2.reply, by rw [h1]; exact h2.state⟩, fun hb => ?_⟩
    exfalso
    rcases hbt with ⟨rfl, rfl⟩ | ⟨rfl, rfl⟩ | ⟨rfl, rfl⟩
    · exact absurd hb (by decide)
    · cases c <;> exact absurd h1 (by decide)
    · exact absurd hb (by decide)
  · refine ⟨fun hb hr => ?_, fun _ => ⟨⟨_, h2.reply⟩, h2.state.trans ha.symm⟩⟩
    exfalso
    rcases h1 with h1 | ⟨h1, _⟩
    · rcases hbt with ⟨rfl, rfl⟩ | ⟨rfl, rfl⟩ | ⟨rfl, rfl⟩
      · exact h1 .stopCopy rfl
      · exact absurd hb (by decide)
      · exact h1 .preCopy rfl
    · rw [hr] at h1; cases h1
  · rw [hw] at h1; cases h1

end

section
open Demo

/-- A client at a device without DMA, and one at a device with it. -/
def barren : St := (run dev noDma [hello]).1
def rich : St := (run dev fresh [hello]).1

/-- A request of the given flags with the given data. -/
def about (flags : Nat) (data : List Byte) : Msg :=
  ⟨hdr 5 16 0 (enc 4 64 ++ enc 4 flags ++ data).length, enc 4 64 ++ enc 4 flags ++ data, []⟩

theorem about_next {st : St} (ha : Awaits st) (hm : st.mig = some 2) (flags : Nat) (data : List Byte)
    (h : (enc 4 64 ++ enc 4 flags ++ data).length ≤ 1048576 + 16) (h0 : enc 4 64 ++ enc 4 flags ++ data ≠ []) :
    Next dev env st (about flags data) :=
  next_req env_fair rfl rfl ha hm 5 16 _ [] (by decide) (by decide) h h0 (by simp)

theorem rich_ok : Awaits rich ∧ rich.mig = some 2 := ⟨⟨by decide +kernel, by decide +kernel⟩, by decide +kernel⟩
theorem barren_ok : Awaits barren ∧ barren.mig = some 2 := ⟨⟨by decide +kernel, by decide +kernel⟩, by decide +kernel⟩

-- GET of the migration state is offered, SET of the report is not; feature 3 is unknown
example : Answered (about 0x50002 []) 0 (about 0x50002 []).body
    (call dev rich (.run env (.req (about 0x50002 []).hdr (about 0x50002 []).body []))) :=
  (C91_probe dev_table.1 (about_next rich_ok.1 rich_ok.2 _ _ (by decide) (by decide)) rfl (by rw [rich_ok.2]; simp) (by decide) (by decide)
    (by decide)).1 ⟨true, true, rfl, (fun _ => rfl), (fun _ => rfl), fun i hi => Nat.testBit_lt_two_pow (Nat.lt_of_lt_of_le
      (by decide : leAt (about 0x50002 []).body 4 4 < 2 ^ 19) (Nat.pow_le_pow_right (by decide) hi))⟩

example : Answered (about 0x60008 []) EINVAL [] (call dev rich (.run env (.req (about 0x60008 []).hdr (about 0x60008 []).body []))) :=
  (C91_probe dev_table.1 (about_next rich_ok.1 rich_ok.2 _ _ (by decide) (by decide)) rfl (by rw [rich_ok.2]; simp) (by decide) (by decide)
    (by decide)).2.1 (by
      rintro ⟨g, s, h1, _, h2, _⟩
      cases h1
      exact absurd (h2 (by decide)) (by decide))

example : Answered (about 0x10003 []) EINVAL [] (call dev rich (.run env (.req (about 0x10003 []).hdr (about 0x10003 []).body []))) :=
  (C91_refused dev_table.1 (about_next rich_ok.1 rich_ok.2 _ _ (by decide) (by decide)) rfl (.inr (.inr (.inl (by
      rintro ⟨g, s, h1, _⟩
      cases h1))))).1

-- the device announces PRE_COPY and goes there
example : ∃ caps, Answered (about 0x10001 []) 0 (enc 4 16 ++ enc 4 0x10001 ++ enc 8 caps)
      (call dev rich (.run env (.req (about 0x10001 []).hdr (about 0x10001 []).body []))) ∧
    (caps.testBit 2 = true → (call dev rich (.run env (.req (about 0x20002 (enc 4 6 ++ enc 4 0)).hdr
      (about 0x20002 (enc 4 6 ++ enc 4 0)).body []))).st.mig = some 6) := by
  obtain ⟨caps, h1, _, h2⟩ := C91_migration dev_table.1 (about_next rich_ok.1 rich_ok.2 0x10001 [] (by decide) (by decide)) rfl
    (by rw [rich_ok.2]; simp) (by decide) (by decide) (by decide)
  refine ⟨caps, h1, fun h => ?_⟩
  exact ((h2 2 6 (by decide) (about_next rich_ok.1 rich_ok.2 0x20002 (enc 4 6 ++ enc 4 0) (by decide) (by decide)) (a := .running)
    rich_ok.2 ⟨rfl, by decide⟩ (by decide) (by decide) (by decide) (fun _ => rfl)).1 h rfl).2

/-- Dirty page logging is offered by a device that has no DMA; a client that makes use of the offer brings the server
down. -/
theorem C91_violated :
    Answered (about 0x60006 []) 0 (about 0x60006 []).body
      (call dev barren (.run env (.req (about 0x60006 []).hdr (about 0x60006 []).body []))) ∧
    (call dev barren (.run env (.req (about 0x20006 (enc 8 4096 ++ enc 8 0)).hdr (about 0x20006 (enc 8 4096 ++ enc 8 0)).body []))).res =
      .fault .assertFail := by
  refine ⟨?_, by decide +kernel⟩
  exact (C91_probe dev_table.1 (about_next barren_ok.1 barren_ok.2 _ _ (by decide) (by decide)) rfl (by rw [barren_ok.2]; simp) (by decide)
    (by decide) (by decide)).1 ⟨false, true, rfl, (fun h => absurd h (by decide)), (fun _ => rfl), fun i hi => Nat.testBit_lt_two_pow (Nat.lt_of_lt_of_le
      (by decide : leAt (about 0x60006 []).body 4 4 < 2 ^ 19) (Nat.pow_le_pow_right (by decide) hi))⟩

end

end Verif.Server
