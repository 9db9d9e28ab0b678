import Verif.Server.Migrate
import Verif.Dma.Soil

/-!
# C80: the client's account of the written pages

The dirty page log as the client sees it: an observer who knows the requests, the replies and which guest addresses the
device wrote knows what the next report will say. -/

namespace Verif.Server
open Verif
open Verif.Dma (Fd Tbl Represents)

/-! ## The account -/

/-- DEVICE_FEATURE (16): start logging, stop logging, report the written pages. -/
def Msg.startsLog (m : Msg) : Prop := m.hdr.cmd = 16 ∧ leAt m.body 4 4 = 0x20006
def Msg.stopsLog (m : Msg) : Prop := m.hdr.cmd = 16 ∧ leAt m.body 4 4 = 0x20007
def Msg.asksLog (m : Msg) : Prop := m.hdr.cmd = 16 ∧ leAt m.body 4 4 = 0x10008

instance (m : Msg) : Decidable m.startsLog := instDecidableAnd
instance (m : Msg) : Decidable m.stopsLog := instDecidableAnd
instance (m : Msg) : Decidable m.asksLog := instDecidableAnd

/-- The page size of the log, 0 if there is none; the written pages of the range of `l` bytes at `b`. -/
structure Book where
  pg : Nat
  dirty : Nat → Nat → Nat → Prop

def Book.clean (d : Book) : Book := { d with dirty := fun _ _ _ => False }
def Book.wipe (d : Book) (a s : Nat) : Book := { d with dirty := fun b l p => d.dirty b l p ∧ ¬ (b = a ∧ l = s) }

/-- What is noted when the reply `w` to the request `m` arrives.  Error replies change nothing.  A report, and the removal of a
range, come with payload; after either nothing is recorded for the range. -/
def jot (d : Book) (m : Msg) (w : Wire.Sent) : Book :=
  if (Wire.Hdr.ofBytes w.bytes).flags.testBit 5 = true then d
  else if m.startsLog then { d with pg := leAt m.body 8 8 }
  else if m.stopsLog then { pg := 0, dirty := fun _ _ _ => False }
  else if (m.asksLog ∨ m.hdr.cmd = 3) ∧ 16 < w.bytes.length then
    if m.hdr.cmd = 3 ∧ leAt m.body 4 4 = 2 then d.clean else d.wipe (leAt m.body 8 8) (leAt m.body 16 8)
  else d

/-- The device wrote the guest addresses of `sgl`. -/
def soak (t : Tbl) (d : Book) (sgl : List Dma.Sg) : Book :=
  { d with dirty := fun b l p => d.dirty b l p ∨ d.pg ≠ 0 ∧ (t b l).isSome = true ∧ ∃ sg ∈ sgl, sg.Wets d.pg b l p }

/-- One call. -/
def jotCall (t : Tbl) (d : Book) (st : St) (op : Op) (evs : List Ev) : Book :=
  if .detach ∈ evs then d.clean
  else match op with
    | .mark sgl => soak t d sgl
    | _ => match op.subject st, sents evs with
      | some m, [w] => jot d m w
      | _, _ => d

/-- The account after a history; `t` is the account of the mappings (C71). -/
def book (cfg : Cfg) : Tbl → Book → St → List Op → Book
  | _, d, _, [] => d
  | t, d, st, op :: ops => book cfg (noteCall t (op.subject st) (call cfg st op).evs)
      (jotCall t d st op (call cfg st op).evs) (call cfg st op).st ops

/-! ## What client and device must observe -/

/-- Replies are wanted to requests that concern the log. -/
def Logged (i : Wire.In) : Prop :=
  Plain i ∧ ∀ h body fds, i = .req h body fds → (⟨h, body, fds⟩ : Msg).startsLog ∨ (⟨h, body, fds⟩ : Msg).stopsLog ∨
    (⟨h, body, fds⟩ : Msg).asksLog → h.noReply = false

/-- Pages are powers of two; while logging, a report names a range the client mapped, at the page size of the log, and a
removal with report a range the client mapped. -/
structure MindfulMsg (t : Tbl) (d : Book) (m : Msg) : Prop where
  start : m.startsLog → ∃ k, leAt m.body 8 8 = 2 ^ k
  report : m.asksLog → d.pg = 0 ∨ (t (leAt m.body 8 8) (leAt m.body 16 8)).isSome = true ∧ leAt m.body 24 8 = d.pg
  unmap : m.hdr.cmd = 3 → leAt m.body 4 4 = 1 → d.pg = 0 ∨ (t (leAt m.body 8 8) (leAt m.body 16 8)).isSome = true

/-- The device marks what it got by translation from the present table. -/
def Mindful (t : Tbl) (d : Book) (st : St) (op : Op) : Prop :=
  (∀ m, op.subject st = some m → MindfulMsg t d m) ∧
    ∀ sgl c, op = .mark sgl → st.dma = some c → ∀ sg ∈ sgl, Dma.NamesRegion c sg

def AllMindful (cfg : Cfg) : Tbl → Book → St → List Op → Prop
  | _, _, _, [] => True
  | t, d, st, op :: ops => Mindful t d st op ∧ AllMindful cfg (noteCall t (op.subject st) (call cfg st op).evs)
      (jotCall t d st op (call cfg st op).evs) (call cfg st op).st ops

/-! ## Requests -/

/-- The account is right. -/
structure Right (c : Dma.Ctl) (d : Book) : Prop where
  pg : c.dirtyPgsize = d.pg
  pages : ∀ b l p, Dma.Soiled c b l p ↔ d.dirty b l p
  two : d.pg = 0 ∨ ∃ k, d.pg = 2 ^ k

theorem rep_some {c : Dma.Ctl} {t : Tbl} (h : Represents c t) (a s : Nat) :
    (t a s).isSome = true ↔ ∃ r ∈ c.regions, r.info.base = a ∧ r.info.len = s := by
  constructor
  · intro hs
    obtain ⟨v, hv⟩ := Option.isSome_iff_exists.mp hs
    obtain ⟨r, h1, h2, h3, _⟩ := (h.1 a s v).mp hv
    exact ⟨r, h1, h2, h3⟩
  · rintro ⟨r, h1, h2, h3⟩
    rw [(h.1 a s ⟨r.info.prot, r.offset, r.fd⟩).mpr ⟨r, h1, h2, h3, rfl, rfl, rfl⟩]
    rfl

theorem validUnmap_len {body : List Byte} {u : Unit} (hv : validUnmap body = .ok u) : 24 ≤ body.length := by
  unfold validUnmap at hv
  have hL : ∀ a b, validUnmap.lengths body a b = .ok u → a ≤ body.length := by
    intro a b h
    unfold validUnmap.lengths at h
    split_ifs at h with h1 h2
    omega
  revert hv
  split <;> intro hv
  · cases hv
  · cases hv
  split_ifs at hv
  · split at hv
    · cases hv
    · cases hv
    · have := hL _ _ hv; omega
  · split at hv
    · cases hv
    · cases hv
    split_ifs at hv
    split at hv
    · cases hv
    · cases hv
    split_ifs at hv
    exact hL _ _ hv
  · exact hL _ _ hv

/-- Feature requests of other kinds leave the log alone. -/
theorem feature_still (env : Mig.FEnv) (st : Mig.FSt) (body : List Byte) (h6 : leAt body 4 4 ≠ 0x20006)
    (h7 : leAt body 4 4 ≠ 0x20007) (h8 : leAt body 4 4 ≠ 0x10008) : (Mig.handleFeature env st body).1.dma = st.dma := by
  have hlt := leAt_lt body 4 4
  rcases Mig.feature_cases env st body with he | ⟨m, hm, hsup, ⟨ho, he⟩ | ⟨ho, he⟩ | ⟨_, _, he⟩⟩
  · rw [he]
  · rw [he]
    unfold Mig.featGet
    by_cases h1 : Mig.isMigFeature (leAt body 4 4 % 65536) = true
    · rw [if_pos h1]
    rw [if_neg h1, if_neg]
    intro h2
    simp only [Mig.isDmaFeature, Mig.FEAT_LOG_START, Mig.FEAT_LOG_STOP, Mig.FEAT_LOG_REPORT, Bool.or_eq_true, beq_iff_eq] at h2
    simp only [Mig.F_GET] at ho
    rcases h2 with (h2 | h2) | h2
    · have : leAt body 4 4 = 0x10006 := by omega
      rw [this, show Mig.supported (some m) (0x10006 % 65536) = 0x60000 from rfl] at hsup
      cases hsup
    · have : leAt body 4 4 = 0x10007 := by omega
      rw [this, show Mig.supported (some m) (0x10007 % 65536) = 0x60000 from rfl] at hsup
      cases hsup
    · exact h8 (by omega)
  · rw [he]
    unfold Mig.featSet
    by_cases h0 : leAt body 0 4 < body.length
    · rw [if_pos h0]
    rw [if_neg h0]
    by_cases h3 : env.alloc = false
    · rw [if_pos h3]
    rw [if_neg h3]
    by_cases h1 : Mig.isMigFeature (leAt body 4 4 % 65536) = true
    · rw [if_pos h1]
    rw [if_neg h1, if_neg]
    intro h2
    simp only [Mig.isDmaFeature, Mig.FEAT_LOG_START, Mig.FEAT_LOG_STOP, Mig.FEAT_LOG_REPORT, Bool.or_eq_true, beq_iff_eq] at h2
    simp only [Mig.F_SET] at ho
    rcases h2 with (h2 | h2) | h2
    · exact h6 (by omega)
    · exact h7 (by omega)
    · have : leAt body 4 4 = 0x20008 := by omega
      rw [this, show Mig.supported (some m) (0x20008 % 65536) = 0x50000 from rfl] at hsup
      cases hsup
  · rw [he]

section
variable {cfg : Cfg} {env : Env} {st : St} {c : Dma.Ctl} {t : Tbl} {d : Book} {m : Msg}

theorem feature_set_log {n : Nat} (hn : n = 6 ∨ n = 7) {a : Nat} (hm : st.mig = some a) (hl : 8 ≤ m.body.length)
    (hf : leAt m.body 4 4 = 0x20000 + n) (hd : st.dma = some c) (ha : env.alloc = true) :
    (leAt m.body 0 4 < m.body.length → feature env st m.body m.fds = Done.pure st m.fds (.err EINVAL) (.bytes []) []) ∧
    (m.body.length ≤ leAt m.body 0 4 → feature env st m.body m.fds =
      Done.pure { st with dma := (Mig.dmaSet env.feat (some c) n m.body).1 } m.fds
        ((Mig.dmaSet env.feat (some c) n m.body).2.map (fun _ => m.body)) (.bytes m.body) []) := by
  have hl8 : ¬ m.body.length < 8 := by omega
  have hx : Mig.handleFeature env.feat { mig := st.mig, dma := st.dma } m.body =
      Mig.featSet env.feat { mig := st.mig, dma := st.dma } a n (leAt m.body 0 4) m.body := by
    rcases hn with rfl | rfl
    all_goals
      unfold Mig.handleFeature
      rw [if_neg hl8, hf]
      dsimp only
      rw [hm, show ∀ n, Mig.supported (some a) n = Mig.supported (some 0) n from fun _ => rfl, if_neg (by decide)]
      dsimp only
      rw [if_neg (by decide), if_pos (by decide)]
  have hout : featureErrOut env st m.body = if leAt m.body 0 4 < m.body.length then .bytes [] else .bytes m.body := by
    unfold featureErrOut
    rw [if_neg hl8, hf, hm]
    have hfa : ¬ env.alloc = false := by rw [ha]; simp
    rcases hn with rfl | rfl
    all_goals
      dsimp only
      rw [show ∀ n, Mig.supported (some a) n = Mig.supported (some 0) n from fun _ => rfl, if_neg (by decide), if_neg (by decide), if_pos (by decide), if_neg hfa]
  unfold feature
  rw [hx, hout]
  unfold Mig.featSet
  refine ⟨fun h => ?_, fun h => ?_⟩
  · rw [if_pos h, if_pos h]; rfl
  · have hn' : ¬ leAt m.body 0 4 < m.body.length := by omega
    rw [if_neg hn', if_neg hn', if_neg (by show ¬ env.alloc = false; rw [ha]; simp),
      if_neg (by rcases hn with rfl | rfl <;> decide), if_pos (by rcases hn with rfl | rfl <;> decide), hd]
    rfl

/-- Without the eight bytes of the header, or without migration, feature requests are refused. -/
theorem feature_refused (h : m.body.length < 8 ∨ st.mig = none) :
    feature env st m.body m.fds = Done.pure st m.fds (.err EINVAL) (.bytes []) [] := by
  have hx : Mig.handleFeature env.feat { mig := st.mig, dma := st.dma } m.body =
      ({ mig := st.mig, dma := st.dma }, .err EINVAL, []) := by
    unfold Mig.handleFeature
    by_cases hl : m.body.length < 8
    · rw [if_pos hl]
    · have h := h.resolve_left hl
      rw [if_neg hl, h]
      dsimp only
      rw [if_pos (.inr rfl)]
  have hout : featureErrOut env st m.body = .bytes [] := by
    unfold featureErrOut
    by_cases hl : m.body.length < 8
    · rw [if_pos hl]
    · have h := h.resolve_left hl
      rw [if_neg hl, h]
      dsimp only
      rw [if_pos (.inr rfl)]
  unfold feature
  rw [hx, hout]
  rfl

theorem feature_report {a : Nat} (hm : st.mig = some a) (hl : 8 ≤ m.body.length) (hf : leAt m.body 4 4 = 0x10008)
    (hd : st.dma = some c) (ha : env.alloc = true) :
    feature env st m.body m.fds =
      Done.pure { st with dma := (Mig.dmaGet env.feat (some c) (leAt m.body 0 4) 0x10008 m.body).1 } m.fds
        (Mig.dmaGet env.feat (some c) (leAt m.body 0 4) 0x10008 m.body).2 (.bytes []) [] := by
  have hl8 : ¬ m.body.length < 8 := by omega
  have hx : Mig.handleFeature env.feat { mig := st.mig, dma := st.dma } m.body =
      Mig.featGet env.feat { mig := st.mig, dma := st.dma } a 8 (leAt m.body 0 4) 0x10008 m.body := by
    unfold Mig.handleFeature
    rw [if_neg hl8, hf]
    dsimp only
    rw [hm, show ∀ n, Mig.supported (some a) n = Mig.supported (some 0) n from fun _ => rfl, if_neg (by decide)]
    dsimp only
    rw [if_pos (by decide)]
  have hout : featureErrOut env st m.body = .bytes [] := by
    unfold featureErrOut
    rw [if_neg hl8, hf, hm]
    dsimp only
    rw [show ∀ n, Mig.supported (some a) n = Mig.supported (some 0) n from fun _ => rfl, if_neg (by decide), if_pos (by decide),
      if_neg (by decide), if_pos (by decide), hd]
    cases getBitmapSize (leAt m.body 16 8) (leAt m.body 24 8) with
    | ok n => dsimp only; rw [if_pos (.inr ha)]
    | err e => rfl
    | fault f => rfl
  unfold feature
  rw [hx, hout]
  unfold Mig.featGet
  rw [if_neg (by decide), if_pos (by decide), hd]
  rfl

/-- What the reply to `exec` tells agrees with what `exec` did. -/
theorem exec_jot (hd : st.dma = some c) (hg : Dma.Good c) (hi : Dma.Inv2 c) (hrep : Represents c t) (hri : Right c d)
    (hf : env.Fair) (hcm : MindfulMsg t d m) (hno : (exec cfg env st m).res.isFault = false) {l : List Byte}
    (hl : (exec cfg env st m).out = .bytes l) :
    ∃ c', (exec cfg env st m).st.dma = some c' ∧
      (∀ w, Tells w (replyErr (exec cfg env st m).res % U32) l → Right c' (jot d m w)) ∧
      (m.asksLog → l ≠ [] → ∀ p, Dma.bit (l.drop 32) p = true ↔ d.dirty (leAt m.body 8 8) (leAt m.body 16 8) p) ∧
      (m.hdr.cmd ≠ 3 → ¬ m.startsLog → ¬ m.stopsLog → ¬ m.asksLog → Right c' d) := by
  have other : m.hdr.cmd ≠ 3 → ¬ m.startsLog → ¬ m.stopsLog → ¬ m.asksLog → ∀ w, jot d m w = d := by
    intro h3 h6 h7 h8 w
    unfold jot
    rw [if_neg (c := m.startsLog) h6, if_neg (c := m.stopsLog) h7, if_neg (c := _ ∧ _) (fun h => h.1.elim h8 h3), ite_self]
  by_cases h3 : m.hdr.cmd = 3
  · rw [exec_unmap hd h3] at hno hl ⊢
    suffices ∃ c', (dmaUnmap cfg env st c m.body m.fds).st.dma = some c' ∧
        ((dmaUnmap cfg env st c m.body m.fds).res = .ok () ∧ l ≠ [] ∧
            Right c' (if leAt m.body 4 4 = 2 then d.clean else d.wipe (leAt m.body 8 8) (leAt m.body 16 8)) ∨
          l = [] ∧ Right c' d) by
      obtain ⟨c', s1, s2⟩ := this
      refine ⟨c', s1, fun w hw => ?_, (fun h => by have := h.1; omega), fun h => absurd h3 h⟩
      have n6 : ¬ m.startsLog := fun h => by have := h.1; omega
      have n7 : ¬ m.stopsLog := fun h => by have := h.1; omega
      unfold jot
      obtain ⟨⟨hb, hb1, hb2⟩, hw2⟩ := hw
      have hlen : w.bytes.length = 16 + l.length := by rw [hb2, List.length_append, hb1]
      rcases s2 with ⟨s3, s4, s5⟩ | ⟨s4, s5⟩
      · rw [hw2, s3, if_neg (by simp [replyErr]), if_neg n6, if_neg n7, if_pos ⟨.inr h3, by
          have := List.length_pos_iff.mpr s4; omega⟩]
        simp only [h3, true_and]
        exact s5
      · rw [if_neg (c := m.startsLog) n6, if_neg (c := m.stopsLog) n7, if_neg (c := _ ∧ _) (by rw [hlen, s4]; simp), ite_self]
        exact s5
    unfold dmaUnmap at hl hno ⊢
    by_cases hb : m.body = []
    · rw [if_pos hb] at hno; cases hno
    rw [if_neg hb] at hl hno ⊢
    cases hv : validUnmap m.body with
    | fault f => rw [hv] at hno; cases hno
    | err e =>
      rw [hv] at hl
      cases hl
      exact ⟨c, hd, .inr ⟨rfl, hri⟩⟩
    | ok u =>
      rw [hv] at hl hno
      dsimp only at hl hno ⊢
      have hlen := validUnmap_len hv
      have hk : unmapKind env m.body = .all ↔ leAt m.body 4 4 = 2 := by
        unfold unmapKind UNMAP_ALL UNMAP_DIRTY
        split_ifs with a b <;> simp [a]
      have hk1 : ∀ pg n buf hint, unmapKind env m.body = .getDirty pg n buf hint → leAt m.body 4 4 = 1 := by
        intro pg n buf hint
        unfold unmapKind UNMAP_ALL UNMAP_DIRTY
        split_ifs with a b
        · intro h; cases h
        · exact fun _ => b
        · intro h; cases h
      have key : ∀ o, Dma.handleUnmap env.alloc cfg.dma.hasUnreg c (leAt m.body 8 8) (leAt m.body 16 8)
          (unmapKind env m.body) = o → (∀ f, o.2.1 ≠ .fault f) →
          ((∃ x, o.2.1 = .ok x) →
            Right o.1 (if leAt m.body 4 4 = 2 then d.clean else d.wipe (leAt m.body 8 8) (leAt m.body 16 8))) ∧
          ((∀ x, o.2.1 ≠ .ok x) → Right o.1 d) := by
        rintro o rfl hnf
        by_cases h0 : d.pg = 0
        · obtain ⟨g1, g2⟩ := Dma.unmap_off hg.log (hri.pg.trans h0) env.alloc cfg.dma.hasUnreg (leAt m.body 8 8)
            (leAt m.body 16 8) (unmapKind env m.body)
          have hnd : ∀ b l p, ¬ d.dirty b l p := fun b l p h =>
            Dma.not_soiled_off hg.log (hri.pg.trans h0) b l p ((hri.pages b l p).mpr h)
          refine ⟨fun _ => ?_, fun _ => ⟨g1.trans h0.symm, fun b l p => iff_of_false (g2 b l p) (hnd b l p), .inl h0⟩⟩
          split_ifs
          · exact ⟨g1.trans h0.symm, fun b l p => iff_of_false (g2 b l p) id, .inl h0⟩
          · exact ⟨g1.trans h0.symm, fun b l p => iff_of_false (g2 b l p) (fun h => hnd b l p h.1), .inl h0⟩
        · obtain ⟨g1, g2, g3⟩ := Dma.soiled_unmap hg hi env.alloc cfg.dma.hasUnreg (leAt m.body 8 8) (leAt m.body 16 8)
            (unmapKind env m.body)
            (fun pg n buf hint h => (rep_some hrep _ _).mp ((hcm.unmap h3 (hk1 _ _ _ _ h)).resolve_left h0)) hnf
          refine ⟨fun hx => ?_, fun hx => ⟨g1.trans hri.pg, fun b l p => (g3 hx b l p).trans (hri.pages b l p), hri.two⟩⟩
          by_cases h2 : leAt m.body 4 4 = 2
          · rw [if_pos h2]
            exact ⟨g1.trans hri.pg, fun b l p => (g2 hx b l p).trans (iff_of_false (fun h => h.1 (hk.mpr h2)) id), hri.two⟩
          · rw [if_neg h2]
            refine ⟨g1.trans hri.pg, fun b l p => (g2 hx b l p).trans ?_, hri.two⟩
            rw [hri.pages]
            exact ⟨fun h => h.2, fun h => ⟨fun hc => h2 (hk.mp hc), h⟩⟩
      generalize Dma.handleUnmap env.alloc cfg.dma.hasUnreg c (leAt m.body 8 8) (leAt m.body 16 8)
        (unmapKind env m.body) = o at hl hno key
      obtain ⟨c', r, evs⟩ := o
      cases r with
      | ok b =>
        have g := (key _ rfl (by simp)).1 ⟨b, rfl⟩
        cases b with
        | none =>
          cases hl
          refine ⟨c', rfl, .inl ⟨rfl, ?_, g⟩⟩
          intro h
          have := congrArg List.length h
          rw [List.length_take] at this
          simp only [List.length_nil] at this
          omega
        | some bm =>
          cases hl
          refine ⟨c', rfl, .inl ⟨rfl, ?_, g⟩⟩
          intro h
          have := congrArg List.length h
          rw [List.length_append, List.length_take] at this
          simp only [List.length_nil] at this
          omega
      | okEmpty => cases hl; exact ⟨c', rfl, .inr ⟨rfl, (key _ rfl (by simp)).2 (by simp)⟩⟩
      | err e => cases hl; exact ⟨c', rfl, .inr ⟨rfl, (key _ rfl (by simp)).2 (by simp)⟩⟩
      | fault f => cases hno
  by_cases h16 : m.hdr.cmd = 16
  · rw [exec_feature h16] at hno hl ⊢
    by_cases href : m.body.length < 8 ∨ st.mig = none
    · rw [feature_refused href]
      refine ⟨c, hd, fun w hw => ?_, fun _ h => ?_, fun _ _ _ _ => hri⟩
      rotate_left
      · rw [feature_refused href] at hl
        cases hl
        exact absurd rfl h
      unfold jot
      rw [if_pos (by rw [hw.2]; rfl)]
      exact hri
    have hl8 : 8 ≤ m.body.length := by
      by_contra h
      exact href (.inl (by omega))
    obtain ⟨a, hm⟩ : ∃ a, st.mig = some a := by
      cases h : st.mig with
      | none => exact absurd (.inr h) href
      | some a => exact ⟨a, rfl⟩
    by_cases h6 : leAt m.body 4 4 = 0x20006
    · have hs : m.startsLog := ⟨h16, h6⟩
      obtain ⟨g1, g2⟩ := feature_set_log (n := 6) (.inl rfl) hm hl8 h6 hd hf.alloc
      by_cases hz : leAt m.body 0 4 < m.body.length
      · rw [g1 hz]
        refine ⟨c, hd, fun w hw => ?_, (fun h => by have := h.2; omega), fun _ h => absurd hs h⟩
        unfold jot
        rw [if_pos (by rw [hw.2]; rfl)]
        exact hri
      · have g2 := g2 (by omega)
        rw [g2] at hno hl ⊢
        unfold Mig.dmaSet at hno hl ⊢
        dsimp only at hno hl ⊢
        rw [if_pos (show 6 = Mig.FEAT_LOG_START from rfl)] at hno hl ⊢
        by_cases h16' : 16 ≤ m.body.length
        · have hrd : rd m.body 8 8 = .ok (leAt m.body 8 8) := if_pos (by omega)
          rw [hrd] at hno hl ⊢
          dsimp only at hno hl ⊢
          obtain ⟨s1, s2, s3⟩ := Dma.soiled_start hg.log env.feat.ca (leAt m.body 8 8)
          refine ⟨_, rfl, fun w hw => ?_, (fun h => by have := h.2; omega), fun _ h => absurd hs h⟩
          unfold jot
          rw [hw.2]
          cases hres : (Dma.loggingStart env.feat.ca c (leAt m.body 8 8)).2 with
          | ok u =>
            rw [if_neg (by simp [Done.pure, Res.map, replyErr]), if_pos hs]
            exact ⟨s1 hres, fun b l p => (s3 b l p).trans (hri.pages b l p), .inr (hcm.start hs)⟩
          | err e =>
            have he := Dma.loggingStart_errno hres
            rw [if_pos (by rcases he with rfl | rfl <;> simp [Done.pure, Res.map, replyErr, EINVAL, ENOMEM, U32])]
            exact ⟨(s2 (by rw [hres]; simp)).trans hri.pg, fun b l p => (s3 b l p).trans (hri.pages b l p), hri.two⟩
          | fault f =>
            simp only [Done.pure, hres, Res.map] at hno
            cases hno
        · have hrd : rd m.body 8 8 = .fault .oob := if_neg (by omega)
          rw [hrd] at hno
          cases hno
    by_cases h7 : leAt m.body 4 4 = 0x20007
    · have hs : m.stopsLog := ⟨h16, h7⟩
      have hns : ¬ m.startsLog := fun h => h6 h.2
      obtain ⟨g1, g2⟩ := feature_set_log (n := 7) (.inr rfl) hm hl8 h7 hd hf.alloc
      by_cases hz : leAt m.body 0 4 < m.body.length
      · rw [g1 hz]
        refine ⟨c, hd, fun w hw => ?_, (fun h => by have := h.2; omega), fun _ _ h => absurd hs h⟩
        unfold jot
        rw [if_pos (by rw [hw.2]; rfl)]
        exact hri
      · have g2 := g2 (by omega)
        rw [g2] at hno hl ⊢
        unfold Mig.dmaSet at hno hl ⊢
        dsimp only at hno hl ⊢
        rw [if_neg (show ¬ 7 = Mig.FEAT_LOG_START by decide), if_pos (show 7 = Mig.FEAT_LOG_STOP from rfl)] at hno hl ⊢
        refine ⟨_, rfl, fun w hw => ?_, (fun h => by have := h.2; omega), fun _ _ h => absurd hs h⟩
        unfold jot
        rw [hw.2, if_neg (by simp [Done.pure, Res.map, replyErr]), if_neg hns, if_pos hs]
        obtain ⟨s1, s2⟩ := Dma.soiled_stop hg.log
        exact ⟨s1, fun b l p => iff_of_false (s2 b l p) id, .inl rfl⟩
    by_cases h8 : leAt m.body 4 4 = 0x10008
    · have hs : m.asksLog := ⟨h16, h8⟩
      have hns : ¬ m.startsLog := fun h => h6 h.2
      have hns' : ¬ m.stopsLog := fun h => h7 h.2
      have hx := feature_report hm hl8 h8 hd hf.alloc
      rw [hx] at hno hl ⊢
      suffices ∃ c', (Mig.dmaGet env.feat (some c) (leAt m.body 0 4) 0x10008 m.body).1 = some c' ∧
          ((∃ y, (Mig.dmaGet env.feat (some c) (leAt m.body 0 4) 0x10008 m.body).2 = .ok y ∧ y ≠ [] ∧
              ∀ p, Dma.bit (y.drop 32) p = true ↔ d.dirty (leAt m.body 8 8) (leAt m.body 16 8) p) ∧
            Right c' (d.wipe (leAt m.body 8 8) (leAt m.body 16 8)) ∨
          (∃ e, (Mig.dmaGet env.feat (some c) (leAt m.body 0 4) 0x10008 m.body).2 = .err e) ∧ Right c' d) by
        obtain ⟨c', s1, s2⟩ := this
        refine ⟨c', s1, fun w hw => ?_, fun _ hne => ?_, fun _ _ _ h => absurd hs h⟩
        rotate_left
        · rcases s2 with ⟨⟨y, e1, e2, e3⟩, s⟩ | ⟨⟨e, e1⟩, s⟩
          · simp only [Done.pure, e1] at hl
            cases hl
            exact e3
          · simp only [Done.pure, e1] at hl
            cases hl
            exact absurd rfl hne
        unfold jot
        obtain ⟨⟨hb, hb1, hb2⟩, hw2⟩ := hw
        have hlen : w.bytes.length = 16 + l.length := by rw [hb2, List.length_append, hb1]
        rw [if_neg (c := m.startsLog) hns, if_neg (c := m.stopsLog) hns']
        rcases s2 with ⟨⟨y, e1, e2, _⟩, s⟩ | ⟨⟨e, e1⟩, s⟩
        · rw [hw2, if_neg (by simp [Done.pure, e1, Res.map, replyErr]), if_pos ⟨.inl hs, by
            simp only [Done.pure, e1] at hl
            cases hl
            have := List.length_pos_iff.mpr e2
            omega⟩, if_neg (fun h => h3 h.1)]
          exact s
        · have : l = [] := by simp only [Done.pure, e1] at hl; cases hl; rfl
          rw [if_neg (c := _ ∧ _) (by rw [hlen, this]; simp), ite_self]
          exact s
      have hno' : (Mig.dmaGet env.feat (some c) (leAt m.body 0 4) 0x10008 m.body).2.isFault = false := by
        simp only [Done.pure] at hno
        cases h : (Mig.dmaGet env.feat (some c) (leAt m.body 0 4) 0x10008 m.body).2 with
        | ok y => rfl
        | err e => rfl
        | fault f => rw [h] at hno; cases hno
      clear hno hl hx
      unfold Mig.dmaGet at hno' ⊢
      by_cases h32 : 32 ≤ m.body.length
      · have r8 : rd m.body 8 8 = .ok (leAt m.body 8 8) := if_pos (by omega)
        have r16 : rd m.body 16 8 = .ok (leAt m.body 16 8) := if_pos (by omega)
        have r24 : rd m.body 24 8 = .ok (leAt m.body 24 8) := if_pos (by omega)
        rw [r8, r16, r24] at hno' ⊢
        dsimp only at hno' ⊢
        cases hbs : getBitmapSize (leAt m.body 16 8) (leAt m.body 24 8) with
        | fault f => rw [hbs] at hno'; cases hno'
        | err e => exact ⟨c, rfl, .inr ⟨⟨e, rfl⟩, hri⟩⟩
        | ok n =>
          rw [hbs] at hno'
          dsimp only at hno' ⊢
          by_cases hz : leAt m.body 0 4 < 32 + n
          · rw [if_pos hz]; exact ⟨c, rfl, .inr ⟨⟨_, rfl⟩, hri⟩⟩
          rw [if_neg hz] at hno' ⊢
          have hal : ¬ env.feat.alloc = false := by show ¬ env.alloc = false; rw [hf.alloc]; simp
          rw [if_neg hal] at hno' ⊢
          generalize hq : Dma.dirtyPageGet c env.feat.hint (leAt m.body 8 8) (leAt m.body 16 8) (leAt m.body 24 8) n
            (List.replicate n 0#8) = o at hno' ⊢
          obtain ⟨c1, o⟩ := o
          have hnf : ∀ f, o ≠ .fault f := by rintro f rfl; cases hno'
          have hw : c.dirtyPgsize = 0 ∨ (∃ k, leAt m.body 24 8 = 2 ^ k) ∧ c.dirtyPgsize = leAt m.body 24 8 ∧
              ∃ r ∈ c.regions, r.info.base = leAt m.body 8 8 ∧ r.info.len = leAt m.body 16 8 := by
            rcases hcm.report hs with h0 | ⟨h1, h2⟩
            · exact .inl (hri.pg.trans h0)
            · rcases hri.two with h0 | h0
              · exact .inl (hri.pg.trans h0)
              · exact .inr ⟨by rw [h2]; exact h0, hri.pg.trans h2.symm, (rep_some hrep _ _).mp h1⟩
          obtain ⟨q1, q2, q3, q4, q5⟩ := Dma.soiled_report hg hi (by simp) hbs hw hq hnf
          have good : (∃ bm, o = .done bm) ∨ o = .ret0 → Right c1 (d.wipe (leAt m.body 8 8) (leAt m.body 16 8)) := by
            intro ho
            refine ⟨q1.trans hri.pg, fun b l p => (q3 ho b l p).trans ?_, hri.two⟩
            rw [hri.pages]
            rfl
          have dr : ∀ (x y z u v : Nat) (bm : List Byte),
              (enc 4 x ++ enc 4 y ++ enc 8 z ++ enc 8 u ++ enc 8 v ++ bm).drop 32 = bm := by
            intro x y z u v bm
            rw [List.drop_append, List.drop_of_length_le (by simp [enc_length])]
            simp [enc_length]
          have ne : ∀ (x y z u v : Nat) (bm : List Byte),
              enc 4 x ++ enc 4 y ++ enc 8 z ++ enc 8 u ++ enc 8 v ++ bm ≠ [] := by
            intro x y z u v bm h
            have := congrArg List.length h
            simp [enc_length] at this
          cases o with
          | done bm =>
            refine ⟨c1, rfl, .inl ⟨⟨_, rfl, ne _ _ _ _ _ _, fun p => ?_⟩, good (.inl ⟨bm, rfl⟩)⟩⟩
            rw [dr, q4 bm rfl, hri.pages]
          | ret0 =>
            refine ⟨c1, rfl, .inl ⟨⟨_, rfl, ne _ _ _ _ _ _, fun p => ?_⟩, good (.inr rfl)⟩⟩
            rw [dr, Dma.bit_replicate_zero, ← hri.pages]
            exact iff_of_false (by simp) (q5 rfl p)
          | noErrno =>
            have := q2 (by simp) (by simp)
            subst this
            exact ⟨c1, rfl, .inr ⟨⟨_, rfl⟩, hri⟩⟩
          | err e =>
            have := q2 (by simp) (by simp)
            subst this
            exact ⟨c1, rfl, .inr ⟨⟨_, rfl⟩, hri⟩⟩
          | fault f => exact absurd rfl (hnf f)
      · exfalso
        have r24 : rd m.body 24 8 = .fault .oob := if_neg (by omega)
        rw [r24] at hno'
        revert hno'
        dsimp only
        cases rd m.body 8 8 <;> cases rd m.body 16 8 <;> (intro h; cases h)
    · have hst := feature_still env.feat { mig := st.mig, dma := st.dma } m.body h6 h7 h8
      refine ⟨c, hst.trans hd, fun w _ => ?_, fun h => absurd h.2 h8, fun _ _ _ _ => hri⟩
      rw [other h3 (fun h => h6 h.2) (fun h => h7 h.2) (fun h => h8 h.2) w]
      exact hri
  have n6 : ¬ m.startsLog := fun h => h16 h.1
  have n7 : ¬ m.stopsLog := fun h => h16 h.1
  have n8 : ¬ m.asksLog := fun h => h16 h.1
  suffices ∃ c', (exec cfg env st m).st.dma = some c' ∧ Right c' d by
    obtain ⟨c', s1, s2⟩ := this
    exact ⟨c', s1, fun w _ => by rw [other h3 n6 n7 n8 w]; exact s2, fun h => absurd h n8, fun _ _ _ _ => s2⟩
  refine exec_elim (P := fun d' => ∃ c', d'.st.dma = some c' ∧ Right c' d) cfg env st m ?_ ?_ ?_ ?_ ?_ ?_ ?_ ?_ ?_ ?_ ?_ ?_ ?_ ?_ ?_
  · exact fun _ _ => ⟨c, hd, hri⟩
  · intro c1 _ hc1
    rw [hd] at hc1
    cases hc1
    refine dmaMap_elim (P := fun d' => ∃ c', d'.st.dma = some c' ∧ Right c' d) cfg env st c _ _ (fun _ _ => ⟨c, hd, hri⟩) ?_
    rintro o rfl
    obtain ⟨s1, s2⟩ := Dma.soiled_map env.os cfg.dma.hasReg c (mapReq m.body m.fds)
    exact ⟨_, rfl, s1.trans hri.pg, fun b l p => (s2 b l p).trans (hri.pages b l p), hri.two⟩
  · exact fun _ h => absurd h h3
  iterate 7 exact fun _ => ⟨c, hd, hri⟩
  · exact fun _ => ⟨c, (deviceReset_tables ..).1.trans hd, hri⟩
  · exact fun h => absurd h h16
  iterate 3 exact fun _ => ⟨c, hd, hri⟩

end

/-! ## Calls -/

theorem Logged.plain {i : Wire.In} (h : Logged i) : Plain i := h.1

theorem Op.Good.mono {p q : Wire.In → Prop} (h : ∀ i, p i → q i) {op : Op} (hg : op.Good p) : op.Good q := by
  cases op <;> first | exact h _ hg | trivial

theorem KeptGood.mono {p q : Wire.In → Prop} (h : ∀ i, p i → q i) {st : St} (hk : KeptGood p st) : KeptGood q st :=
  fun m hm => h _ (hk m hm)

theorem Tidy.good {cfg : Cfg} {x : Nat × Nat} {c : Dma.Ctl} (h : Tidy cfg x (some c)) (hx : x.2 ≤ 2 ^ 62) :
    Dma.Good c ∧ c.maxRegions = x.1 := by
  obtain ⟨dops, g1, g2⟩ := h
  cases g2
  exact ⟨Dma.good_run _ _ _ dops hx (fun op ho => (g1 op ho).2), (Dma.max_run cfg.dma dops (Dma.create x.1 x.2)).1⟩

theorem call_jot {cfg : Cfg} (hi : cfg.irq.Ok) (ht : TableOk cfg.tbl) {x : Nat × Nat} (hx : x.2 ≤ 2 ^ 62) {st : St}
    (hr : Reached cfg (some x) st.dma st.irqs) (hk : KeptGood Logged st) (htd : Tidy cfg x st.dma) {c : Dma.Ctl} {t : Tbl}
    {d : Book} (hd : st.dma = some c) (hrep : Represents c t) (hri : Right c d) (op : Op) (ho : op.Fair)
    (hg : op.Good Logged) (hm : Mindful t d st op) (hno : (call cfg st op).res.isFault = false) :
    ∃ c', (call cfg st op).st.dma = some c' ∧ Right c' (jotCall t d st op (call cfg st op).evs) ∧
      (.detach ∉ (call cfg st op).evs → ∀ m w, op.subject st = some m → m.asksLog → sents (call cfg st op).evs = [w] → 16 < w.bytes.length →
        ∀ p, Dma.bit (w.bytes.drop 48) p = true ↔ d.dirty (leAt m.body 8 8) (leAt m.body 16 8) p) := by
  have hsub : ∀ m, op.subject st = some m → m.hdr.cmd = 3 ∨ m.startsLog ∨ m.stopsLog ∨ m.asksLog → m.hdr.noReply = false := by
    intro m hm hc
    have key : ∀ {h : Wire.Hdr} {body : List Byte} {fds : List Fd}, Logged (.req h body fds) →
        h.cmd = 3 ∨ (⟨h, body, fds⟩ : Msg).startsLog ∨ (⟨h, body, fds⟩ : Msg).stopsLog ∨ (⟨h, body, fds⟩ : Msg).asksLog →
        h.noReply = false := by
      intro h body fds hL hc
      rcases hc with hc | hc
      · exact hL.1.1.2 _ _ _ rfl (.inr hc)
      · exact hL.2 _ _ _ rfl hc
    cases op with
    | run env i =>
      cases i with
      | req h body fds => cases hm; exact key hg hc
      | _ => cases hm
    | quiesced env e =>
      unfold Op.subject at hm
      cases hp : st.pending with
      | msg m' => rw [hp] at hm; cases hm; exact key (hk m hp) hc
      | _ => rw [hp] at hm; cases hm
    | _ => cases hm
  have hgood : Dma.Good c := (Tidy.good (hd ▸ htd : Tidy cfg x (some c)) hx).1
  have hinv : Dma.Inv2 c := by
    obtain ⟨⟨ops, h1, h2⟩, _⟩ := hr
    rw [hd] at h2
    cases h2
    exact Dma.inv2_run _ _ _ ops (fun op h => (h1 op h).symm)
  by_cases hmk : ∃ sgl, op = .mark sgl
  · obtain ⟨sgl, rfl⟩ := hmk
    have hv := hm.2 sgl c rfl hd
    have hok : ∃ c', Dma.sglMark c sgl = .ok c' := by
      rcases hri.two with h0 | ⟨k, h0⟩
      · exact ⟨c, Dma.C11_off c (hri.pg.trans h0) sgl⟩
      · obtain ⟨c', h1, _⟩ := Dma.sglMark_spec sgl c (hri.pg.trans h0) hgood.log hgood.small (fun sg hs => by
          obtain ⟨r, g1, _, g3, g4, g5⟩ := hv sg hs
          exact ⟨r, g1, g3, g4, g5⟩)
        exact ⟨c', h1⟩
    obtain ⟨c', hok⟩ := hok
    have hc : call cfg st (.mark sgl) = { st := { st with dma := some c' }, res := .ok (), evs := [] } := by
      simp only [call, hd, hok]
    rw [hc]
    obtain ⟨s1, s2⟩ := Dma.soiled_mark hgood hv (by rw [hri.pg]; exact hri.two) hok
    refine ⟨c', rfl, ⟨s1.trans hri.pg, fun b l p => (s2 b l p).trans ?_, hri.two⟩, fun _ m w h => by cases h⟩
    show _ ↔ d.dirty b l p ∨ d.pg ≠ 0 ∧ (t b l).isSome = true ∧ ∃ sg ∈ sgl, sg.Wets d.pg b l p
    rw [hri.pages, rep_some hrep, hri.pg]
  have hnm : ∀ evs, .detach ∉ evs → jotCall t d st op evs = match op.subject st, sents evs with
      | some m, [w] => jot d m w
      | _, _ => d := by
    intro evs h
    unfold jotCall
    rw [if_neg h]
    cases op with
    | mark sgl => exact absurd ⟨sgl, rfl⟩ hmk
    | _ => rfl
  have quiet : ∀ {evs : List Ev}, .detach ∉ evs → sents evs = [] → jotCall t d st op evs = d := by
    intro evs h1 h2
    rw [hnm evs h1, h2]
    cases op.subject st <;> rfl
  have hT := call_turn hi ht hr (fun m hm => (hk m hm).1.1.1) op ho hno
  generalize call cfg st op = o at hT hno
  cases hT with
  | idle hs h1 h2 =>
    exact ⟨c, hs.dma.trans hd, by rw [quiet h2 h1]; exact hri, fun _ m w _ _ h => by rw [h1] at h; cases h⟩
  | bad hs h1 h2 =>
    refine ⟨c, hs.dma.trans hd, ?_, fun _ m w h => by rw [h1] at h; cases h⟩
    rw [hnm _ h2, h1]
    exact hri
  | refused m e hs h1 h2 he h3 h4 =>
    refine ⟨c, hs.dma.trans hd, ?_, fun _ m' w hm' _ hw hlen => ?_⟩
    rotate_left
    · exfalso
      rw [h1] at hm'
      cases hm'
      cases hn : m.hdr.noReply with
      | true => rw [h3 hn] at hw; cases hw
      | false =>
        obtain ⟨w', hw', hi'⟩ := h4 hn
        rw [hw'] at hw
        cases hw
        obtain ⟨hb, b1, b2⟩ := hi'.bytes
        rw [b2, List.append_nil, b1] at hlen
        omega
    cases hn : m.hdr.noReply with
    | true => rw [quiet h2 (h3 hn)]; exact hri
    | false =>
      obtain ⟨w, hw, hi⟩ := h4 hn
      rw [hnm _ h2, h1, hw]
      dsimp only
      unfold jot
      rw [if_pos (by rw [hi.error]; have := he.1; simp; omega)]
      exact hri
  | executed env q m l hf h1 h2 h3 h4 h5 h6 h7 h8 =>
    obtain ⟨c', g1, g2, gr, g3⟩ := exec_jot (cfg := cfg) (env := env) (st := { st with quiesced := q }) hd hgood hinv hrep hri hf
      (hm.1 m h1) h3 h6
    refine ⟨c', h4.dma.trans g1, ?_, fun _ m' w hm' hs hw hlen => ?_⟩
    rotate_left
    · rw [h1] at hm'
      cases hm'
      obtain ⟨w', hw', ⟨⟨hb, b1, b2⟩, _⟩, _⟩ := h8 (hsub m h1 (.inr (.inr (.inr hs))))
      rw [hw'] at hw
      cases hw
      have := gr hs (by rintro rfl; rw [b2, List.append_nil, b1] at hlen; omega)
      have hdrop : w.bytes.drop 48 = l.drop 32 := by
        rw [b2, List.drop_append, List.drop_of_length_le (by omega), b1, List.nil_append]
      rw [hdrop]
      exact this
    rw [hnm _ h5, h1]
    cases hn : m.hdr.noReply with
    | true =>
      rw [h7 hn]
      have hc : ¬ (m.hdr.cmd = 3 ∨ m.startsLog ∨ m.stopsLog ∨ m.asksLog) := fun h => by rw [hsub m h1 h] at hn; cases hn
      exact g3 (fun h => hc (.inl h)) (fun h => hc (.inr (.inl h))) (fun h => hc (.inr (.inr (.inl h))))
        (fun h => hc (.inr (.inr (.inr h))))
    | false =>
      obtain ⟨w, hw, hi, _⟩ := h8 hn
      rw [hw]
      exact g2 w hi
  | reset env q h1 h2 h3 =>
    obtain ⟨ev3, he⟩ := resetQuiesced_exact hi env (st := { st with quiesced := q }) hr
    rw [he] at h3
    refine ⟨_, h3.dma.trans (deviceReset_tables ..).1, ?_, fun h => absurd h1 h⟩
    unfold jotCall
    rw [if_pos h1]
    refine ⟨?_, fun b l p => iff_of_false ?_ id, hri.two⟩
    · show (st.dma.map (·.dirtyPgsize)).getD 0 = d.pg
      rw [hd]
      exact hri.pg
    · rintro ⟨r, h, _⟩; cases h
  | config f h1 h2 h3 => exact ⟨c, by rw [h2]; exact hd, by rw [quiet (by rw [h3]; simp) (by rw [h3]; rfl)]; exact hri,
      fun _ m w _ _ h => by rw [h3] at h; cases h⟩
  | mark sgl c0 c' h1 => exact absurd ⟨sgl, h1⟩ hmk

theorem run_jot {cfg : Cfg} (hi : cfg.irq.Ok) (ht : TableOk cfg.tbl) {x : Nat × Nat} (hx : x.2 ≤ 2 ^ 62) (ops : List Op) {st : St}
    (hr : Reached cfg (some x) st.dma st.irqs) (hk : KeptGood Logged st) (htd : Tidy cfg x st.dma) {c : Dma.Ctl} {t : Tbl}
    {d : Book} (hd : st.dma = some c) (hrep : Represents c t) (hri : Right c d)
    (ho : ∀ op ∈ ops, op.Fair ∧ op.OSOk ∧ op.Good Logged) (hm : AllMindful cfg t d st ops) (hno : Completes cfg st ops) :
    ∃ c', (run cfg st ops).1.dma = some c' ∧ Right c' (book cfg t d st ops) := by
  induction ops generalizing st c t d with
  | nil => exact ⟨c, hd, hri⟩
  | cons op ops ih =>
    obtain ⟨o1, o2, o3⟩ := ho op (List.mem_cons_self ..)
    obtain ⟨c', h1, h2, _⟩ := call_jot hi ht hx hr hk htd hd hrep hri op o1 o3 hm.1 hno.1
    obtain ⟨c2, h3, h4⟩ := call_noted hi ht hr (hk.mono fun i h => h.1.1) hd hrep op o1 o2 (o3.mono fun i h => h.1.1) hno.1
    rw [h1] at h3
    cases h3
    have hrun : (run cfg st (op :: ops)).1 = (run cfg (call cfg st op).st ops).1 := by
      conv_lhs => unfold run
      dsimp only
      rw [hno.1]
      rfl
    rw [hrun]
    exact ih ((stable_reached cfg (some x)).kept.call hr op o2) ((closed_true cfg Logged).call st hk op o3).2
      (call_tidy hi ht hr (hk.mono fun i h => h.1) htd op o1 o2 (o3.mono fun i h => h.1) hno.1) h1 h4 h2
      (fun op' h => ho op' (List.mem_cons_of_mem _ h)) hm.2 hno.2

/-! ## C80 -/

/-- Nothing logged yet. -/
def Book.none : Book := { pg := 0, dirty := fun _ _ _ => False }

theorem run_append {cfg : Cfg} (a b : List Op) {st : St} (h : Completes cfg st a) :
    (run cfg st (a ++ b)).1 = (run cfg (run cfg st a).1 b).1 := by
  induction a generalizing st with
  | nil => rfl
  | cons op a ih =>
    have hrun : ∀ l, (run cfg st (op :: l)).1 = (run cfg (call cfg st op).st l).1 := by
      intro l
      conv_lhs => unfold run
      dsimp only
      rw [h.1]
      rfl
    rw [List.cons_append, hrun, hrun, ih h.2]

theorem completes_append {cfg : Cfg} (a b : List Op) {st : St} :
    Completes cfg st (a ++ b) ↔ Completes cfg st a ∧ Completes cfg (run cfg st a).1 b := by
  induction a generalizing st with
  | nil => exact ⟨fun h => ⟨trivial, h⟩, fun h => h.2⟩
  | cons op a ih =>
    constructor
    · rintro ⟨h1, h2⟩
      have hrun : (run cfg st (op :: a)).1 = (run cfg (call cfg st op).st a).1 := by
        conv_lhs => unfold run
        dsimp only
        rw [h1]
        rfl
      obtain ⟨h3, h4⟩ := ih.mp h2
      exact ⟨⟨h1, h3⟩, by rw [hrun]; exact h4⟩
    · rintro ⟨⟨h1, h2⟩, h3⟩
      have hrun : (run cfg st (op :: a)).1 = (run cfg (call cfg st op).st a).1 := by
        conv_lhs => unfold run
        dsimp only
        rw [h1]
        rfl
      rw [hrun] at h3
      exact ⟨h1, ih.mpr ⟨h2, h3⟩⟩

theorem account_append {cfg : Cfg} (a b : List Op) {t : Tbl} {st : St} (h : Completes cfg st a) :
    account cfg t st (a ++ b) = account cfg (account cfg t st a) (run cfg st a).1 b := by
  induction a generalizing st t with
  | nil => rfl
  | cons op a ih =>
    have hrun : (run cfg st (op :: a)).1 = (run cfg (call cfg st op).st a).1 := by
      conv_lhs => unfold run
      dsimp only
      rw [h.1]
      rfl
    rw [hrun]
    exact ih h.2

theorem mindful_append {cfg : Cfg} (a b : List Op) {t : Tbl} {d : Book} {st : St} (h : Completes cfg st a) :
    AllMindful cfg t d st (a ++ b) ↔ AllMindful cfg t d st a ∧
      AllMindful cfg (account cfg t st a) (book cfg t d st a) (run cfg st a).1 b := by
  induction a generalizing st t d with
  | nil => exact ⟨fun h => ⟨trivial, h⟩, fun h => h.2⟩
  | cons op a ih =>
    have hrun : (run cfg st (op :: a)).1 = (run cfg (call cfg st op).st a).1 := by
      conv_lhs => unfold run
      dsimp only
      rw [h.1]
      rfl
    rw [hrun]
    constructor
    · rintro ⟨h1, h2⟩
      obtain ⟨h3, h4⟩ := (ih h.2).mp h2
      exact ⟨⟨h1, h3⟩, h4⟩
    · rintro ⟨⟨h1, h2⟩, h3⟩
      exact ⟨h1, (ih h.2).mpr ⟨h2, h3⟩⟩

theorem book_append {cfg : Cfg} (a b : List Op) {t : Tbl} {d : Book} {st : St} (h : Completes cfg st a) :
    book cfg t d st (a ++ b) = book cfg (account cfg t st a) (book cfg t d st a) (run cfg st a).1 b := by
  induction a generalizing st t d with
  | nil => rfl
  | cons op a ih =>
    have hrun : (run cfg st (op :: a)).1 = (run cfg (call cfg st op).st a).1 := by
      conv_lhs => unfold run
      dsimp only
      rw [h.1]
      rfl
    rw [hrun]
    exact ih h.2

/-- A conversation about the log. -/
structure LogTalk (cfg : Cfg) (mig : Bool) (x : Nat × Nat) (pci : Pci.Pci) (ops : List Op) : Prop where
  talk : Talk cfg Logged mig x pci ops
  size : x.2 ≤ 2 ^ 62
  mindful : AllMindful cfg Tbl.empty Book.none (init cfg mig (some x) pci) ops

theorem kept_run {cfg : Cfg} {good : Wire.In → Prop} (ops : List Op) {st : St} (hk : KeptGood good st)
    (ho : ∀ op ∈ ops, op.Good good) (hc : Completes cfg st ops) : KeptGood good (run cfg st ops).1 := by
  induction ops generalizing st with
  | nil => exact hk
  | cons op ops ih =>
    have hrun : (run cfg st (op :: ops)).1 = (run cfg (call cfg st op).st ops).1 := by
      conv_lhs => unfold run
      dsimp only
      rw [hc.1]
      rfl
    rw [hrun]
    exact ih ((closed_true cfg good).call st hk op (ho op (List.mem_cons_self ..))).2
      (fun op' h => ho op' (List.mem_cons_of_mem _ h)) hc.2

theorem right_init (x : Nat × Nat) : Right (Dma.create x.1 x.2) Book.none :=
  ⟨rfl, fun b l p => iff_of_false (by rintro ⟨r, h, _⟩; cases h) id, .inl rfl⟩

section
variable {cfg : Cfg} {mig : Bool} {x : Nat × Nat} {pci : Pci.Pci} {ops : List Op}

theorem LogTalk.plain (h : LogTalk cfg mig x pci ops) : Talk cfg Plain mig x pci ops :=
  ⟨h.talk.irq, h.talk.tbl, fun op ho => ⟨(h.talk.each op ho).1, (h.talk.each op ho).2.1, (h.talk.each op ho).2.2.mono fun _ h => h.1⟩,
    h.talk.ends⟩

theorem LogTalk.right (h : LogTalk cfg mig x pci ops) :
    ∃ c, (run cfg (init cfg mig (some x) pci) ops).1.dma = some c ∧
      Right c (book cfg Tbl.empty Book.none (init cfg mig (some x) pci) ops) :=
  run_jot h.talk.irq h.talk.tbl h.size ops ⟨⟨[], (fun _ h => by cases h), rfl⟩, [], rfl⟩ (fun _ h => by cases h)
    ⟨[], (fun _ h => by cases h), rfl⟩ rfl (represents_nil rfl) (right_init x) h.talk.each h.mindful h.talk.ends

theorem LogTalk.prefix {u v : List Op} (h : LogTalk cfg mig x pci (u ++ v)) : LogTalk cfg mig x pci u := by
  have hc := (completes_append u v).mp h.talk.ends
  exact ⟨⟨h.talk.irq, h.talk.tbl, fun op ho => h.talk.each op (List.mem_append_left _ ho), hc.1⟩, h.size,
    ((mindful_append u v hc.1).mp h.mindful).1⟩

/-- C80: every report says what the account says. -/
theorem C80_report {op : Op} (h : LogTalk cfg mig x pci (ops ++ [op])) {m : Msg}
    (hs : op.subject (run cfg (init cfg mig (some x) pci) ops).1 = some m) (hm : m.asksLog)
    (hdt : .detach ∉ (call cfg (run cfg (init cfg mig (some x) pci) ops).1 op).evs) {w : Wire.Sent}
    (hw : sents (call cfg (run cfg (init cfg mig (some x) pci) ops).1 op).evs = [w]) (hp : 16 < w.bytes.length) (p : Nat) :
    Dma.bit (w.bytes.drop 48) p = true ↔
      (book cfg Tbl.empty Book.none (init cfg mig (some x) pci) ops).dirty (leAt m.body 8 8) (leAt m.body 16 8) p := by
  have hpre := h.prefix
  obtain ⟨c, hd, hri⟩ := hpre.right
  obtain ⟨hc1, hc2⟩ := (completes_append ops [op]).mp h.talk.ends
  obtain ⟨hm1, hm2⟩ := (mindful_append ops [op] hc1).mp h.mindful
  obtain ⟨c0, hd0, _, hrep⟩ := hpre.plain.replied.ledger
  rw [hd] at hd0
  cases hd0
  have hr := run_reached cfg mig (some x) pci ops (fun op ho => (hpre.talk.each op ho).2.1)
  have hk : KeptGood Logged (run cfg (init cfg mig (some x) pci) ops).1 :=
    kept_run ops (fun _ h => by cases h) (fun op ho => (hpre.talk.each op ho).2.2) hc1
  obtain ⟨o1, o2, o3⟩ := h.talk.each op (by simp)
  obtain ⟨_, _, _, g⟩ := call_jot h.talk.irq h.talk.tbl h.size hr hk hpre.plain.tidy hd hrep hri op o1 o3 hm2.1 hc2.1
  exact g hdt m w hs hm hw hp p

end

/-! ## What the account means -/

/-- The call ends the record for the range of `l` bytes at `b`: the connection is lost; or a request is acknowledged that stops
the log, removes the range, or reports it. -/
def Ends (cfg : Cfg) (st : St) (op : Op) (b l : Nat) : Prop :=
  .detach ∈ (call cfg st op).evs ∨
  ∃ m w, op.subject st = some m ∧ sents (call cfg st op).evs = [w] ∧ (Wire.Hdr.ofBytes w.bytes).flags.testBit 5 = false ∧
    (m.stopsLog ∨ 16 < w.bytes.length ∧
      (m.hdr.cmd = 3 ∧ leAt m.body 4 4 = 2 ∨ (m.asksLog ∨ m.hdr.cmd = 3) ∧ leAt m.body 8 8 = b ∧ leAt m.body 16 8 = l))

/-- No call ends the record. -/
def Survives (cfg : Cfg) : St → List Op → Nat → Nat → Prop
  | _, [], _, _ => True
  | st, op :: ops, b, l => ¬ Ends cfg st op b l ∧ Survives cfg (call cfg st op).st ops b l

/-- Page `p` of the range was written while the range was mapped and logged. -/
def Writes (t : Tbl) (d : Book) (op : Op) (b l p : Nat) : Prop :=
  ∃ sgl, op = .mark sgl ∧ d.pg ≠ 0 ∧ (t b l).isSome = true ∧ ∃ sg ∈ sgl, sg.Wets d.pg b l p

theorem jotCall_dirty {cfg : Cfg} (t : Tbl) (d : Book) (st : St) (op : Op) (b l p : Nat) :
    (jotCall t d st op (call cfg st op).evs).dirty b l p ↔
      (d.dirty b l p ∨ Writes t d op b l p) ∧ ¬ Ends cfg st op b l := by
  unfold jotCall Ends
  by_cases hdt : .detach ∈ (call cfg st op).evs
  · rw [if_pos hdt]
    exact iff_of_false id (fun h => h.2 (.inl hdt))
  rw [if_neg hdt]
  by_cases hmk : ∃ sgl, op = .mark sgl
  · obtain ⟨sgl, rfl⟩ := hmk
    have hne : ¬ (.detach ∈ (call cfg st (.mark sgl)).evs ∨ ∃ m w, Op.subject st (.mark sgl) = some m ∧
        sents (call cfg st (.mark sgl)).evs = [w] ∧ (Wire.Hdr.ofBytes w.bytes).flags.testBit 5 = false ∧
        (m.stopsLog ∨ 16 < w.bytes.length ∧ (m.hdr.cmd = 3 ∧ leAt m.body 4 4 = 2 ∨
          (m.asksLog ∨ m.hdr.cmd = 3) ∧ leAt m.body 8 8 = b ∧ leAt m.body 16 8 = l))) := by
      rintro (h | ⟨m, w, h, _⟩)
      · exact hdt h
      · cases h
    unfold Writes
    dsimp only [soak]
    constructor
    · rintro (h | h)
      · exact ⟨.inl h, hne⟩
      · exact ⟨.inr ⟨sgl, rfl, h⟩, hne⟩
    · rintro ⟨h | ⟨_, h1, h2⟩, _⟩
      · exact .inl h
      · cases h1; exact .inr h2
  have hW : ¬ Writes t d op b l p := fun ⟨sgl, h, _⟩ => hmk ⟨sgl, h⟩
  have hj : (match op with
      | .mark sgl => soak t d sgl
      | _ => match op.subject st, sents (call cfg st op).evs with
        | some m, [w] => jot d m w
        | _, _ => d) = match op.subject st, sents (call cfg st op).evs with
        | some m, [w] => jot d m w
        | _, _ => d := by
    cases op with
    | mark sgl => exact absurd ⟨sgl, rfl⟩ hmk
    | _ => rfl
  rw [hj]
  have same : ∀ {P : Prop}, ¬ P → (d.dirty b l p ↔ (d.dirty b l p ∨ Writes t d op b l p) ∧ ¬ P) :=
    fun hP => ⟨fun h => ⟨.inl h, hP⟩, fun h => h.1.resolve_right hW⟩
  split
  · rename_i m w hm hw
    have key : ∀ {P : Prop}, ((jot d m w).dirty b l p ↔ (d.dirty b l p ∨ Writes t d op b l p) ∧
        ¬ ((Wire.Hdr.ofBytes w.bytes).flags.testBit 5 = false ∧
          (m.stopsLog ∨ 16 < w.bytes.length ∧ (m.hdr.cmd = 3 ∧ leAt m.body 4 4 = 2 ∨
            (m.asksLog ∨ m.hdr.cmd = 3) ∧ leAt m.body 8 8 = b ∧ leAt m.body 16 8 = l)))) := by
      intro P
      unfold jot
      by_cases hf : (Wire.Hdr.ofBytes w.bytes).flags.testBit 5 = true
      · rw [if_pos hf]
        exact same (fun h => by rw [hf] at h; cases h.1)
      have hf' : (Wire.Hdr.ofBytes w.bytes).flags.testBit 5 = false := by simpa using hf
      rw [if_neg hf]
      by_cases h6 : m.startsLog
      · rw [if_pos h6]
        refine same (fun h => ?_)
        have h16 := h6.1
        have hb := h6.2
        rcases h.2 with h | ⟨_, h | ⟨h | h, _⟩⟩
        · have := h.2; omega
        · omega
        · have := h.2; omega
        · omega
      rw [if_neg h6]
      by_cases h7 : m.stopsLog
      · rw [if_pos h7]
        exact iff_of_false id (fun h => h.2 ⟨hf', .inl h7⟩)
      rw [if_neg h7]
      by_cases hp : (m.asksLog ∨ m.hdr.cmd = 3) ∧ 16 < w.bytes.length
      · rw [if_pos hp]
        by_cases ha : m.hdr.cmd = 3 ∧ leAt m.body 4 4 = 2
        · rw [if_pos ha]
          exact iff_of_false id (fun h => h.2 ⟨hf', .inr ⟨hp.2, .inl ha⟩⟩)
        · rw [if_neg ha]
          show d.dirty b l p ∧ ¬ (b = leAt m.body 8 8 ∧ l = leAt m.body 16 8) ↔ _
          constructor
          · rintro ⟨h1, h2⟩
            refine ⟨.inl h1, fun h => ?_⟩
            rcases h.2 with h | ⟨_, h | ⟨_, h3, h4⟩⟩
            · exact h7 h
            · exact ha h
            · exact h2 ⟨h3.symm, h4.symm⟩
          · rintro ⟨h1, h2⟩
            exact ⟨h1.resolve_right hW, fun h => h2 ⟨hf', .inr ⟨hp.2, .inr ⟨hp.1, h.1.symm, h.2.symm⟩⟩⟩⟩
      · rw [if_neg hp]
        refine same (fun h => ?_)
        rcases h.2 with h | ⟨h2, h | ⟨h, _⟩⟩
        · exact h7 h
        · exact hp ⟨.inr h.1, h2⟩
        · exact hp ⟨h, h2⟩
    rw [key (P := True)]
    refine and_congr_right fun _ => not_congr ⟨fun h => .inr ⟨m, w, hm, hw, h⟩, ?_⟩
    rintro (h | ⟨m', w', e1, e2, h⟩)
    · exact absurd h hdt
    · rw [hm] at e1; rw [hw] at e2; cases e1; cases e2; exact h
  · rename_i hnot
    refine same ?_
    rintro (h | ⟨m', w', e1, e2, _⟩)
    · exact hdt h
    · exact hnot m' w' e1 e2

/-- A page is in the account iff the device wrote it while it was logged and nothing ended the record since. -/
theorem book_dirty {cfg : Cfg} (ops : List Op) (t : Tbl) (d : Book) {st : St} (hc : Completes cfg st ops) (b l p : Nat) :
    (book cfg t d st ops).dirty b l p ↔ d.dirty b l p ∧ Survives cfg st ops b l ∨
      ∃ u op v, ops = u ++ op :: v ∧ Writes (account cfg t st u) (book cfg t d st u) op b l p ∧
        Survives cfg (run cfg st u).1 (op :: v) b l := by
  induction ops generalizing st t d with
  | nil =>
    refine ⟨fun h => .inl ⟨h, trivial⟩, ?_⟩
    rintro (h | ⟨u, op, v, h, _⟩)
    · exact h.1
    · cases u <;> cases h
  | cons op ops ih =>
    have hrun : ∀ v, (run cfg st (op :: v)).1 = (run cfg (call cfg st op).st v).1 := by
      intro v
      conv_lhs => unfold run
      dsimp only
      rw [hc.1]
      rfl
    show (book cfg _ _ _ ops).dirty b l p ↔ _
    rw [ih _ _ hc.2, jotCall_dirty]
    constructor
    · rintro (⟨⟨h1 | h1, h2⟩, h3⟩ | ⟨u, op', v, rfl, h1, h2⟩)
      · exact .inl ⟨h1, h2, h3⟩
      · exact .inr ⟨[], op, ops, rfl, h1, h2, h3⟩
      · exact .inr ⟨op :: u, op', v, rfl, h1, by rw [hrun]; exact h2⟩
    · rintro (⟨h1, h2, h3⟩ | ⟨u, op', v, h, h1, h2⟩)
      · exact .inl ⟨⟨.inl h1, h2⟩, h3⟩
      · cases u with
        | nil => cases h; exact .inl ⟨⟨.inr h1, h2.1⟩, h2.2⟩
        | cons o u =>
          cases h
          rw [hrun] at h2
          exact .inr ⟨u, op', v, rfl, h1, h2⟩

section
variable {cfg : Cfg} {mig : Bool} {x : Nat × Nat} {pci : Pci.Pci} {ops : List Op}

/-- C80: a report names exactly the pages of the range that the device wrote, while the range was mapped and logged, since the
last time the range was reported or removed, the log stopped, or the connection was lost. -/
theorem C80_written {op : Op} (h : LogTalk cfg mig x pci (ops ++ [op])) {m : Msg}
    (hs : op.subject (run cfg (init cfg mig (some x) pci) ops).1 = some m) (hm : m.asksLog)
    (hdt : .detach ∉ (call cfg (run cfg (init cfg mig (some x) pci) ops).1 op).evs) {w : Wire.Sent}
    (hw : sents (call cfg (run cfg (init cfg mig (some x) pci) ops).1 op).evs = [w]) (hp : 16 < w.bytes.length) (p : Nat) :
    Dma.bit (w.bytes.drop 48) p = true ↔
      ∃ u op' v, ops = u ++ op' :: v ∧
        Writes (account cfg Tbl.empty (init cfg mig (some x) pci) u)
          (book cfg Tbl.empty Book.none (init cfg mig (some x) pci) u) op' (leAt m.body 8 8) (leAt m.body 16 8) p ∧
        Survives cfg (run cfg (init cfg mig (some x) pci) u).1 (op' :: v) (leAt m.body 8 8) (leAt m.body 16 8) := by
  rw [C80_report h hs hm hdt hw hp p, book_dirty ops _ _ h.prefix.talk.ends]
  exact ⟨fun h => h.resolve_left fun h => h.1, .inr⟩

/-- C80: the library's bitmaps are the account. -/
theorem C80_account (h : LogTalk cfg mig x pci ops) :
    ∃ c, (run cfg (init cfg mig (some x) pci) ops).1.dma = some c ∧
      c.dirtyPgsize = (book cfg Tbl.empty Book.none (init cfg mig (some x) pci) ops).pg ∧
      ∀ b l p, Dma.Soiled c b l p ↔ ∃ u op v, ops = u ++ op :: v ∧
        Writes (account cfg Tbl.empty (init cfg mig (some x) pci) u)
          (book cfg Tbl.empty Book.none (init cfg mig (some x) pci) u) op b l p ∧
        Survives cfg (run cfg (init cfg mig (some x) pci) u).1 (op :: v) b l := by
  obtain ⟨c, hd, hr⟩ := h.right
  refine ⟨c, hd, hr.pg, fun b l p => ?_⟩
  rw [hr.pages, book_dirty ops _ _ h.talk.ends]
  exact ⟨fun h => h.resolve_left fun h => h.1, .inr⟩

section
variable (h : LogTalk cfg mig x pci ops) {env : Env} {m : Msg} (hn : Next cfg env (run cfg (init cfg mig (some x) pci) ops).1 m)
  (hhint : env.hint < x.1) {v : Dma.Attr}
  (hv : account cfg Tbl.empty (init cfg mig (some x) pci) ops (leAt m.body 8 8) (leAt m.body 16 8) = some v)
  (hfd : v.fd ≠ none)
  (hpg : leAt m.body 24 8 = (book cfg Tbl.empty Book.none (init cfg mig (some x) pci) ops).pg)
include h hn hhint hv hfd hpg

/-- C80: a request to report a file-backed range at the page size of the log is answered with the bitmap. -/
theorem C80_answered (hm : m.asksLog) (hl : 32 ≤ m.body.length) {a n : Nat}
    (hmig : (run cfg (init cfg mig (some x) pci) ops).1.mig = some a)
    (hsz : getBitmapSize (leAt m.body 16 8) (leAt m.body 24 8) = .ok n) (hz : 32 + n ≤ leAt m.body 0 4) :
    let o := call cfg (run cfg (init cfg mig (some x) pci) ops).1 (.run env (.req m.hdr m.body m.fds))
    ∃ bm, Answered m 0 (enc 4 (32 + n) ++ enc 4 0x10008 ++ enc 8 (leAt m.body 8 8) ++ enc 8 (leAt m.body 16 8) ++
        enc 8 (leAt m.body 24 8) ++ bm) o ∧ bm.length = n ∧
      (∀ p, Dma.bit bm p = true ↔
        (book cfg Tbl.empty Book.none (init cfg mig (some x) pci) ops).dirty (leAt m.body 8 8) (leAt m.body 16 8) p) ∧
      ∃ c', o.st.dma = some c' ∧ ∀ b l p, Dma.Soiled c' b l p ↔
        (book cfg Tbl.empty Book.none (init cfg mig (some x) pci) ops).dirty b l p ∧
          ¬ (b = leAt m.body 8 8 ∧ l = leAt m.body 16 8) := by
  intro o
  obtain ⟨c, hd, hr⟩ := h.right
  obtain ⟨c0, hd0, hi, hrep⟩ := h.plain.replied.ledger
  rw [hd] at hd0
  cases hd0
  have htd := h.plain.tidy
  rw [hd] at htd
  obtain ⟨hg, hmax⟩ := htd.good h.size
  obtain ⟨r, r1, r2, r3, _, _, r6⟩ := (hrep.1 _ _ v).mp hv
  have hpos : leAt m.body 24 8 ≠ 0 := by
    intro h0
    rw [h0] at hsz
    cases hsz
  obtain ⟨k, hk⟩ := hr.two.resolve_left (by rw [← hpg]; exact hpos)
  obtain ⟨c', bm, q1, q2, _, _, q5, q6⟩ := Dma.soiled_query (hint := env.hint) (buf := List.replicate n 0#8) hg hi
    (hr.pg.trans hk) (by rw [hmax]; exact hhint) r1 (by rw [r6]; exact hfd) (by rw [r3, ← hk, ← hpg]; exact hsz)
    List.length_replicate
  have hget : Mig.dmaGet env.feat (some c) (leAt m.body 0 4) 0x10008 m.body =
      (some c', .ok (enc 4 (32 + n) ++ enc 4 0x10008 ++ enc 8 (leAt m.body 8 8) ++ enc 8 (leAt m.body 16 8) ++
        enc 8 (leAt m.body 24 8) ++ bm)) := by
    have e1 : rd m.body 8 8 = .ok (leAt m.body 8 8) := if_pos (by omega)
    have e2 : rd m.body 16 8 = .ok (leAt m.body 16 8) := if_pos (by omega)
    have e3 : rd m.body 24 8 = .ok (leAt m.body 24 8) := if_pos (by omega)
    unfold Mig.dmaGet
    rw [e1, e2, e3]
    dsimp only
    rw [hsz]
    dsimp only
    rw [if_neg (by omega), if_neg (by rw [show env.feat.alloc = env.alloc from rfl, hn.fair.alloc]; simp)]
    rw [r2, r3, ← hk, ← hpg] at q1
    rw [show env.feat.hint = env.hint from rfl, q1]
  have hd' : (ready cfg (run cfg (init cfg mig (some x) pci) ops).1 m).dma = some c := hd
  have hex : exec cfg env (ready cfg (run cfg (init cfg mig (some x) pci) ops).1 m) m = _ :=
    (exec_feature hm.1).trans (feature_report hmig (by omega) hm.2 hd' hn.fair.alloc)
  rw [hget] at hex
  dsimp only at hex
  obtain ⟨l, sv⟩ := hn.served h.talk.tbl (by rw [hex]; rfl)
  have h1 := sv.out
  have h2 := sv.tables
  have h3 := sv.reply
  rw [hex] at h1 h2 h3
  cases h1
  refine ⟨bm, h3, q2, fun p => ?_, c', h2.dma, fun b l p => ?_⟩
  · rw [q5, r2, r3, hr.pages]
  · rw [q6, r2, r3, hr.pages]

/-- C80: so does the removal of the range. -/
theorem C80_unmap (hcmd : m.hdr.cmd = 3) (h1 : 40 ≤ m.body.length) (hf : leAt m.body 4 4 = 1) (hb : ¬ BadUnmap m.body)
    (hmal : ∀ n, (env.malloc n).length = n)
    (hsz : getBitmapSize (leAt m.body 16 8) (leAt m.body 24 8) = .ok (leAt m.body 32 8)) :
    let o := call cfg (run cfg (init cfg mig (some x) pci) ops).1 (.run env (.req m.hdr m.body m.fds))
    ∃ bm, Answered m 0 (m.body.take 40 ++ bm) o ∧ bm.length = leAt m.body 32 8 ∧
      ∀ p, Dma.bit bm p = true ↔
        (book cfg Tbl.empty Book.none (init cfg mig (some x) pci) ops).dirty (leAt m.body 8 8) (leAt m.body 16 8) p := by
  intro o
  obtain ⟨c, hd, hr⟩ := h.right
  obtain ⟨c0, hd0, hi, hrep⟩ := h.plain.replied.ledger
  rw [hd] at hd0
  cases hd0
  have htd := h.plain.tidy
  rw [hd] at htd
  obtain ⟨hg, _⟩ := htd.good h.size
  obtain ⟨r, r1, r2, r3, _, _, r6⟩ := (hrep.1 _ _ v).mp hv
  have hpos : leAt m.body 24 8 ≠ 0 := by
    intro h0
    rw [h0] at hsz
    cases hsz
  obtain ⟨k, hk⟩ := hr.two.resolve_left (by rw [← hpg]; exact hpos)
  obtain ⟨i, hri⟩ := List.getElem?_of_mem r1
  obtain ⟨bm, b1, b2, b3, _⟩ := C72_unmap_dirty h.plain h.size hn hcmd h1 hf hb hhint hmal hd (hr.pg.trans hk)
    (hpg.trans hk) hri (by rw [r6]; exact hfd) r2.symm r3.symm (by rw [r3, ← hk, ← hpg]; exact hsz)
  refine ⟨bm, b1, b2, fun p => ?_⟩
  rw [b3, ← hr.pages, Dma.soiled_iff]
  constructor
  · exact fun h => ⟨i, r, hri, r2, r3, h⟩
  · rintro ⟨j, r', g1, g2, _, g4⟩
    obtain ⟨rfl, _⟩ := Dma.same_base hg hi g1 hri (g2.trans r2.symm)
    exact g4

end
end

/-! ## Reports of less than a range -/

namespace Demo

/-- Report the pages of `size` bytes at `addr`. -/
def askBody (addr size : Nat) : List Byte :=
  enc 4 4096 ++ enc 4 0x10008 ++ enc 8 addr ++ enc 8 size ++ enc 8 0x1000

def ask (addr size : Nat) : Op := .run env (req 8 16 0 (askBody addr size) [])

/-- The reply without its header. -/
def said (ops : List Op) (op : Op) : List (List Byte) :=
  (sents (call cfg (run cfg (init cfg true (some (8, 2 ^ 40)) pci) ops).1 op).evs).map fun w => w.bytes.drop 16

end Demo

open Demo in
/-- A client that asks for the first three pages of its range, of which none was written, is answered; the pages 3 and 4, which
the report would have named before, are in no later report.  (Their bits are set in the padding of the short bitmap.) -/
theorem C80_short_report :
    (said written (ask 0x1000000 0x200000)).map (fun l => l.drop 32) = [24#8 :: List.replicate 63 0#8] ∧
    said written (ask 0x1000000 0x3000) = [enc 4 40 ++ enc 4 0x10008 ++ enc 8 0x1000000 ++ enc 8 0x3000 ++ enc 8 0x1000 ++ enc 8 24] ∧
    (said (written ++ [ask 0x1000000 0x3000]) (ask 0x1000000 0x200000)).map (fun l => l.drop 32) = [List.replicate 64 0#8] := by
  refine ⟨?_, ?_, ?_⟩ <;> decide +kernel

open Demo in
/-- A client that asks to remove, with report, the first three pages of its range is refused; the pages 3 and 4 are in no later
report. -/
theorem C80_short_unmap :
    let op : Op := .run env (req 7 3 0 (unmapDirty 0x1000000 0x3000 8) [])
    (said written (ask 0x1000000 0x200000)).map (fun l => l.drop 32) = [24#8 :: List.replicate 63 0#8] ∧
    (said written op = [[]] ∧ (sents (call cfg (run cfg (init cfg true (some (8, 2 ^ 40)) pci) written).1 op).evs).map
      (fun w => (Wire.Hdr.ofBytes w.bytes).err) = [ENOENT]) ∧
    (said (written ++ [op]) (ask 0x1000000 0x200000)).map (fun l => l.drop 32) = [List.replicate 64 0#8] := by
  refine ⟨?_, ⟨?_, ?_⟩, ?_⟩ <;> decide +kernel

/-! ## Examples -/

section
open Demo

theorem book_written : (book cfg Tbl.empty Book.none (init cfg true (some (8, 2 ^ 40)) pci) written).pg = 0x1000 := by
  decide +kernel

/-- Before the marks. -/
theorem mapped_dma {c : Dma.Ctl}
    (h : (call cfg (call cfg (call cfg (init cfg true (some (8, 2 ^ 40)) pci) written[0]).st written[1]).st written[2]).st.dma = some c) :
    c.regions.map (fun r => (r.info.base, r.info.len, r.fd)) = [(0x1000000, 0x200000, some 5)] := by
  have hv : (call cfg (call cfg (call cfg (init cfg true (some (8, 2 ^ 40)) pci) written[0]).st written[1]).st written[2]).st.dma.map
      (fun c => c.regions.map (fun r => (r.info.base, r.info.len, r.fd))) = some [(0x1000000, 0x200000, some 5)] := by
    decide +kernel
  rw [h] at hv
  exact Option.some.inj hv

/-- The conversation of `written`, then a report. -/
theorem written_logTalk : LogTalk cfg true (8, 2 ^ 40) pci (written ++ [ask 0x1000000 0x200000]) := by
  have ht := written_talk
  have hos : ∀ i, (Op.run env i).OSOk := fun i e' he => by cases he; exact env_ok rfl
  have hlast : Replied (req 8 16 0 (askBody 0x1000000 0x200000) []) :=
    replied_req _ _ _ _ (by decide) (by decide) (by decide) (by decide) (by decide)
  refine ⟨⟨ht.irq, ht.tbl, fun op ho => ?_, (completes_append _ _).mpr ⟨ht.ends, by decide +kernel, trivial⟩⟩, by norm_num,
    (mindful_append _ _ ht.ends).mpr ⟨?_, ⟨fun m hm => ?_, fun _ _ he => (by cases he)⟩, trivial⟩⟩
  · rcases List.mem_append.mp ho with ho | ho
    · obtain ⟨g1, g2, hg⟩ := ht.each op ho
      refine ⟨g1, g2, ?_⟩
      simp only [written, List.mem_cons, List.not_mem_nil, or_false] at ho
      rcases ho with rfl | rfl | rfl | rfl
      · exact trivial
      · exact ⟨hg, fun h b f he _ => by cases he; decide⟩
      · exact ⟨hg, fun h b f he _ => by cases he; decide⟩
      · exact trivial
    · rw [List.mem_singleton] at ho
      subst ho
      exact ⟨⟨env_fair, hlast.1⟩, hos _, ⟨hlast, fun h b f he hc => by cases he; cases hc⟩, fun h b f he _ => by cases he; decide⟩
  · refine ⟨⟨fun m hm => (by cases hm), fun _ _ he => (by cases he)⟩, ⟨fun m hm => ?_, fun _ _ he => (by cases he)⟩,
      ⟨fun m hm => ?_, fun _ _ he => (by cases he)⟩, ⟨fun m hm => (by cases hm), fun sgl c he hd sg hsg => ?_⟩, trivial⟩
    · cases hm
      exact ⟨fun h => absurd h.1 (by decide), fun h => absurd h.1 (by decide), fun _ h => absurd h (by decide)⟩
    · cases hm
      exact ⟨fun _ => ⟨12, by decide⟩, fun h => absurd h.2 (by decide), fun h => absurd h (by decide)⟩
    · cases he
      rw [List.mem_singleton] at hsg
      subst hsg
      have hr := mapped_dma hd
      rcases hrs : c.regions with _ | ⟨r, _ | ⟨_, _⟩⟩
      · rw [hrs] at hr; cases hr
      · rw [hrs] at hr
        simp only [List.map_cons, List.map_nil, List.cons.injEq, Prod.mk.injEq, and_true] at hr
        obtain ⟨h1, h2, h3⟩ := hr
        exact ⟨r, by rw [hrs]; rfl, h1, by rw [h3]; simp, by decide, by rw [h2]; decide⟩
      · rw [hrs] at hr; simp at hr
  · cases hm
    refine ⟨fun h => absurd h.2 (by decide), fun _ => .inr ⟨by decide +kernel, by decide +kernel⟩, fun h => absurd h (by decide)⟩

/-- The account then has two pages. -/
theorem book_pages (p : Nat) :
    (book cfg Tbl.empty Book.none (init cfg true (some (8, 2 ^ 40)) pci) written).dirty 0x1000000 0x200000 p ↔ p = 3 ∨ p = 4 := by
  obtain ⟨c, hd, hr⟩ := written_logTalk.prefix.right
  obtain ⟨c', hd', _, h2, _⟩ := afterWrites_dma
  rw [hd] at hd'
  cases hd'
  rw [← hr.pages, ← bit_written]
  constructor
  · rintro ⟨r, r1, _, _, bm, r2, r3⟩
    rw [h2, List.mem_singleton] at r1
    subst r1
    cases r2
    exact r3
  · exact fun h => ⟨writtenRegion, by rw [h2]; simp, rfl, rfl, _, rfl, h⟩

/-- The report names them. -/
example :
    let m : Msg := ⟨hdr 8 16 0 32, askBody 0x1000000 0x200000, []⟩
    ∃ bm, Answered m 0 (enc 4 96 ++ enc 4 0x10008 ++ enc 8 0x1000000 ++ enc 8 0x200000 ++ enc 8 0x1000 ++ bm)
      (call cfg (run cfg (init cfg true (some (8, 2 ^ 40)) pci) written).1 (.run env (.req m.hdr m.body m.fds))) ∧
      bm.length = 64 ∧ ∀ p, Dma.bit bm p = true ↔ p = 3 ∨ p = 4 := by
  intro m
  have hn : Next cfg env (run cfg (init cfg true (some (8, 2 ^ 40)) pci) written).1 m :=
    afterWrites_next 8 16 (askBody 0x1000000 0x200000) [] (by decide) (by decide) (by decide) (by decide) (by decide)
  have e1 : leAt m.body 8 8 = 0x1000000 := by decide
  have e2 : leAt m.body 16 8 = 0x200000 := by decide
  have e3 : leAt m.body 24 8 = 0x1000 := by decide
  obtain ⟨bm, b1, b2, b3, _⟩ := C80_answered written_logTalk.prefix hn (by decide) (v := ⟨⟨true, true⟩, 0, some 5⟩)
    (by decide +kernel) (by decide) (by rw [book_written, e3]) ⟨rfl, by decide⟩ (by decide) (a := 2) (by decide +kernel)
    (n := 64) (by decide) (by decide)
  rw [e1, e2, e3] at b1
  rw [e1, e2] at b3
  exact ⟨bm, b1, b2, fun p => (b3 p).trans (book_pages p)⟩

/-- C80_written applies to it: the pages come from the write. -/
example : ∃ w, sents (call cfg (run cfg (init cfg true (some (8, 2 ^ 40)) pci) written).1 (ask 0x1000000 0x200000)).evs = [w] ∧
    ∀ p, Dma.bit (w.bytes.drop 48) p = true ↔ p = 3 ∨ p = 4 := by
  have hw : ((sents (call cfg (run cfg (init cfg true (some (8, 2 ^ 40)) pci) written).1 (ask 0x1000000 0x200000)).evs).map
      fun w => w.bytes.length) = [112] := by decide +kernel
  rcases hs : sents (call cfg (run cfg (init cfg true (some (8, 2 ^ 40)) pci) written).1 (ask 0x1000000 0x200000)).evs with
    _ | ⟨w, _ | ⟨_, _⟩⟩
  · rw [hs] at hw; cases hw
  · rw [hs] at hw
    refine ⟨w, rfl, fun p => ?_⟩
    rw [C80_report written_logTalk (m := ⟨hdr 8 16 0 32, askBody 0x1000000 0x200000, []⟩) rfl ⟨rfl, by decide⟩
      (by decide +kernel) hs (by simp at hw; omega) p, ← book_pages]
    rfl
  · rw [hs] at hw; simp at hw

end

end Verif.Server
