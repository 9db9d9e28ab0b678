import Verif.Server.Access
import Verif.Server.Mapping

/-!
# C75, C76: migration as the client sees it

C75: a client that keeps an account of the migration state from the bytes it sent and the replies it got knows the state of
the server.  C76: the transfer of migration data, from the request to the reply. -/

namespace Verif.Server
open Verif
open Verif.Dma (Fd)

/-! ## The client's account -/

/-- DEVICE_FEATURE (16) that sets (0x20002), queries (0x10002) the migration state. -/
def Msg.setsState (m : Msg) : Prop := m.hdr.cmd = 16 ∧ leAt m.body 4 4 = 0x20002
def Msg.asksState (m : Msg) : Prop := m.hdr.cmd = 16 ∧ leAt m.body 4 4 = 0x10002

instance (m : Msg) : Decidable m.setsState := instDecidableAnd
instance (m : Msg) : Decidable m.asksState := instDecidableAnd

/-- What the client knows after the reply `w` to its request `m`; `none`: nothing.  A failed change of state may have gone
part of the way.  A query tells.  An acknowledged reset (13) leads to RUNNING (2). -/
def learn (s : Option Nat) (m : Msg) (w : Wire.Sent) : Option Nat :=
  let failed := (Wire.Hdr.ofBytes w.bytes).flags.testBit 5
  if m.setsState then if failed then none else some (leAt m.body 8 4)
  else if failed then s
  else if m.asksState then some (leAt w.bytes 24 4)
  else if m.hdr.cmd = 13 then some 2
  else s

/-- One call, as the client sees it.  A new client finds a running device. -/
def learnCall (s : Option Nat) (subject : Option Msg) (evs : List Ev) : Option Nat :=
  if .detach ∈ evs then some 2
  else match subject, sents evs with
    | some m, [w] => learn s m w
    | _, _ => s

/-- What the client knows after a history. -/
def known (cfg : Cfg) : Option Nat → St → List Op → Option Nat
  | s, _, [] => s
  | s, st, op :: ops => known cfg (learnCall s (op.subject st) (call cfg st op).evs) (call cfg st op).st ops

/-- The client wants replies to the requests that change the state. -/
def Heard (i : Wire.In) : Prop :=
  Real i ∧ ∀ h body fds, i = .req h body fds → h.cmd = 13 ∨ (⟨h, body, fds⟩ : Msg).setsState → h.noReply = false

/-- Callbacks that fail set `errno`; the device does not refuse to reset itself when its client is gone. -/
structure Env.Resets (env : Env) : Prop where
  state : ∀ k e, env.migCb k = some e → Errno e
  device : ∀ e, env.resetCb .device = some e → Errno e
  lost : env.resetCb .lostConn = none

def Op.Resets (op : Op) : Prop := ∀ env, op.env? = some env → env.Resets

/-! ## Requests -/

section
variable {cfg : Cfg} {env : Env} {st : St} {a : Mig.MSt} {m : Msg}

theorem exec_feature (hc : m.hdr.cmd = 16) : exec cfg env st m = feature env st m.body m.fds := by
  unfold exec
  rw [hc]
  rfl

/-- Requests that leave the state alone. -/
theorem exec_keeps (h1 : ¬ m.setsState) (h2 : m.hdr.cmd ≠ 13) : (exec cfg env st m).st.mig = st.mig := by
  refine exec_elim (P := fun d => d.st.mig = st.mig) cfg env st m ?_ ?_ ?_ ?_ ?_ ?_ ?_ ?_ ?_ ?_ ?_ ?_ ?_ ?_ ?_
  · exact fun _ _ => rfl
  · exact fun c _ _ => dmaMap_elim (P := fun d => d.st.mig = st.mig) cfg env st c _ _ (fun _ _ => rfl) (fun _ _ => rfl)
  · exact fun c _ _ => dmaUnmap_elim (P := fun d => d.st.mig = st.mig) cfg env st c _ _ (fun _ _ => rfl) (fun _ _ _ _ => rfl)
  iterate 7 exact fun _ => rfl
  · exact fun h => absurd h h2
  · intro hc
    exact (Mig.C25_only_set env.feat { mig := st.mig, dma := st.dma } m.body (fun h => h1 ⟨hc, h⟩)).1
  iterate 3 exact fun _ => rfl

theorem reset_ended (r : Reason) :
    (deviceReset cfg env st r).2.1 = .ok () ∧ (deviceReset cfg env st r).1.mig = st.mig.map (fun _ => 2) ∨
    ∃ e, env.resetCb r = some e ∧ (deviceReset cfg env st r).2.1 = .err e ∧ (deviceReset cfg env st r).1.mig = st.mig := by
  unfold deviceReset
  by_cases h : cfg.hasReset = true
  · rw [if_pos h]
    dsimp only
    cases env.resetCb r with
    | none => exact .inl ⟨rfl, rfl⟩
    | some e => exact .inr ⟨e, rfl, rfl, rfl⟩
  · rw [if_neg h]; exact .inl ⟨rfl, rfl⟩

/-- A request to set the state that has the field: the walk of C21, C22. -/
theorem feature_walk (hm : st.mig = some a.num) (hs : m.setsState) (hl : 12 ≤ m.body.length) (ha : env.alloc = true) :
    (leAt m.body 0 4 < m.body.length → feature env st m.body m.fds =
      Done.pure st m.fds (.err EINVAL) (.bytes []) []) ∧
    (m.body.length ≤ leAt m.body 0 4 →
      let w := Mig.setState env.migCb a.num (leAt m.body 8 4)
      feature env st m.body m.fds = Done.pure { st with mig := some w.1 } m.fds (w.2.1.map (fun _ => m.body)) (.bytes m.body)
        (w.2.2.flatMap (ofVfu st.quiesced))) := by
  have hx := Mig.feature_set env.feat { mig := st.mig, dma := st.dma } a.num m.body hm (by omega) hs.2
  have hl8 : ¬ m.body.length < 8 := by omega
  have hsup : Mig.supported (some a.num) (131074 % 65536) = 0x70000 := rfl
  have hrd : rd m.body 8 4 = .ok (leAt m.body 8 4) := if_pos (by omega)
  have hout : featureErrOut env st m.body = if leAt m.body 0 4 < m.body.length then .bytes [] else .bytes m.body := by
    unfold featureErrOut
    rw [if_neg hl8, hs.2, hm]
    dsimp only
    rw [hsup, if_neg (by decide), if_neg (by decide), if_pos (by decide), ha, if_neg (by simp : ¬ (true = false))]
  unfold feature
  rw [hx, hout]
  unfold Mig.featSet
  constructor
  · intro h
    rw [if_pos h, if_pos h]
    rfl
  · intro h w
    have hn : ¬ leAt m.body 0 4 < m.body.length := by omega
    rw [if_neg hn, if_neg hn, if_neg (by show ¬ env.alloc = false; rw [ha]; simp), if_pos (by decide)]
    unfold Mig.migSet
    rw [if_neg (by decide), hrd]
    rfl

/-- A request to set the state without the field. -/
theorem feature_short {body : List Byte} {fds : List Fd} (hm : st.mig = some a.num) (hl : body.length < 12)
    (hs : leAt body 4 4 = 0x20002) :
    ((feature env st body fds).st.mig = st.mig ∧ ∃ e, Errno e ∧ (feature env st body fds).res = .err e) ∨
      (feature env st body fds).res.isFault = true := by
  by_cases hl8 : body.length < 8
  · left
    unfold feature Mig.handleFeature
    rw [if_pos hl8]
    exact ⟨rfl, EINVAL, ⟨by decide, by decide⟩, rfl⟩
  have hx := Mig.feature_set env.feat { mig := st.mig, dma := st.dma } a.num body hm (by omega) hs
  have hrd : rd body 8 4 = .fault .oob := if_neg (by omega)
  unfold feature
  rw [hx]
  unfold Mig.featSet
  by_cases hz : leAt body 0 4 < body.length
  · left
    rw [if_pos hz]
    exact ⟨rfl, EINVAL, ⟨by decide, by decide⟩, rfl⟩
  rw [if_neg hz]
  by_cases ha : env.feat.alloc = false
  · left
    rw [if_pos ha]
    exact ⟨rfl, ENOMEM, ⟨by decide, by decide⟩, rfl⟩
  right
  rw [if_neg ha, if_pos (by decide)]
  unfold Mig.migSet
  rw [if_neg (by decide), hrd]
  rfl

/-- A query. -/
theorem feature_query (hm : st.mig = some a.num) (hs : m.asksState) (ha : env.alloc = true) :
    (feature env st m.body m.fds).st = st ∧ (feature env st m.body m.fds).evs = [] ∧
    (m.body.length < 8 ∨ leAt m.body 0 4 < 16 →
      (feature env st m.body m.fds).res = .err EINVAL ∧ (feature env st m.body m.fds).out = .bytes []) ∧
    (8 ≤ m.body.length → 16 ≤ leAt m.body 0 4 → (feature env st m.body m.fds).res = .ok () ∧
      (feature env st m.body m.fds).out = .bytes (enc 4 16 ++ enc 4 0x10002 ++ enc 4 a.num ++ enc 4 0)) := by
  by_cases hl : m.body.length < 8
  · have hx : feature env st m.body m.fds = Done.pure st m.fds (.err EINVAL) (.bytes []) [] := by
      unfold feature Mig.handleFeature featureErrOut
      rw [if_pos hl, if_pos hl]
      rfl
    rw [hx]
    exact ⟨rfl, rfl, fun _ => ⟨rfl, rfl⟩, fun h => by omega⟩
  have hx := Mig.feature_get env.feat { mig := st.mig, dma := st.dma } a.num m.body hm (by omega) hs.2
  have hsup : Mig.supported (some a.num) (65538 % 65536) = 0x70000 := rfl
  have hout : featureErrOut env st m.body = .bytes [] := by
    unfold featureErrOut
    rw [if_neg hl, hs.2, hm]
    dsimp only
    rw [hsup, if_neg (by decide), if_pos (by decide), if_pos (by decide), if_pos (.inr ha)]
  have hf : feature env st m.body m.fds =
      Done.pure st m.fds (Mig.migGet true a.num (leAt m.body 0 4) (Mig.getFlags 2)) (.bytes []) [] := by
    unfold feature
    rw [hx, hout]
    show Done.pure _ _ (Mig.migGet env.alloc _ _ _) _ _ = _
    rw [ha]
    rfl
  rw [hf]
  unfold Mig.migGet
  refine ⟨rfl, rfl, fun h => ?_, fun _ h => ?_⟩
  · rw [if_pos (by omega)]; exact ⟨rfl, rfl⟩
  · rw [if_neg (by omega), if_neg (by simp)]; exact ⟨rfl, rfl⟩

/-- A walk that fails gives an error number. -/
theorem walk_errno (hcb : ∀ k e, env.migCb k = some e → Errno e) {t e : Nat} (h : (Mig.setState env.migCb a.num t).2.1 = .err e) :
    Errno e := by
  by_cases h8 : t = 8
  · subst h8; rw [Mig.C22_violated] at h; cases h
  rcases Mig.C22_last_acknowledged env.migCb a t h8 with ⟨b, p, _, _, _, hx⟩ | ⟨_, hx⟩ | ⟨q, c, x, e', _, _, _, he, hx⟩
  · rw [hx] at h; cases h
  · rw [hx] at h; cases h; exact ⟨by decide, by decide⟩
  · rw [hx] at h; cases h; exact hcb _ _ he

/-- What the reply to `exec` tells the client agrees with what `exec` did. -/
theorem exec_learn (hm : st.mig = some a.num) (hf : env.Fair) (hr : env.Resets)
    (hno : (exec cfg env st m).res.isFault = false) {l : List Byte} (hl : (exec cfg env st m).out = .bytes l) {s : Option Nat}
    (hs : ∀ n, s = some n → n = a.num) :
    ∃ b : Mig.MSt, (exec cfg env st m).st.mig = some b.num ∧ (¬ m.setsState → m.hdr.cmd ≠ 13 → b = a) ∧
      ∀ w, Tells w (replyErr (exec cfg env st m).res % U32) l → ∀ n, learn s m w = some n → n = b.num := by
  by_cases h1 : m.setsState
  · rw [exec_feature h1.1] at hno hl ⊢
    by_cases h12 : 12 ≤ m.body.length
    · obtain ⟨g1, g2⟩ := feature_walk (env := env) hm h1 h12 hf.alloc
      by_cases hz : leAt m.body 0 4 < m.body.length
      · rw [g1 hz]
        refine ⟨a, hm, fun h => absurd h1 h, fun w hw n hn => ?_⟩
        unfold learn at hn
        have he : (Wire.Hdr.ofBytes w.bytes).flags.testBit 5 = true := by rw [hw.2]; rfl
        rw [if_pos h1, if_pos he] at hn
        cases hn
      · have hx := g2 (by omega)
        dsimp only at hx
        rw [hx] at hno ⊢
        obtain ⟨b, hb⟩ := setState_doc env.migCb a (leAt m.body 8 4)
        refine ⟨b, by rw [← hb]; rfl, fun h => absurd h1 h, fun w hw n hn => ?_⟩
        unfold learn at hn
        rw [if_pos h1] at hn
        cases hres : (Mig.setState env.migCb a.num (leAt m.body 8 4)).2.1 with
        | ok u =>
          have he : ¬ (Wire.Hdr.ofBytes w.bytes).flags.testBit 5 = true := by
            rw [hw.2]
            simp [Done.pure, hres, Res.map, replyErr]
          rw [if_neg he] at hn
          cases hn
          have h8 : leAt m.body 8 4 ≠ 8 := by
            intro h8
            rw [h8, Mig.C22_violated] at hres
            cases hres
          rcases Mig.C22_last_acknowledged env.migCb a (leAt m.body 8 4) h8 with
            ⟨b', p, e1, _, _, e2⟩ | ⟨_, e2⟩ | ⟨q, c, x, e', _, _, _, _, e2⟩
          · rw [e2] at hb; rw [e1]; exact hb
          · rw [e2] at hres; cases hres
          · rw [e2] at hres; cases hres
        | err e =>
          have hE := walk_errno hr.state hres
          have he : (Wire.Hdr.ofBytes w.bytes).flags.testBit 5 = true := by
            rw [hw.2]
            simp only [Done.pure, hres, Res.map, replyErr]
            rw [Nat.mod_eq_of_lt hE.2]
            have := hE.1
            simp; omega
          rw [if_pos he] at hn
          cases hn
        | fault f =>
          simp only [Done.pure, hres, Res.map] at hno
          cases hno
    · rcases feature_short (env := env) (fds := m.fds) hm (show m.body.length < 12 by omega) h1.2 with ⟨g1, e, hE, g2⟩ | g
      · refine ⟨a, g1.trans hm, fun h => absurd h1 h, fun w hw n hn => ?_⟩
        unfold learn at hn
        have he : (Wire.Hdr.ofBytes w.bytes).flags.testBit 5 = true := by
          rw [hw.2, g2, replyErr, Nat.mod_eq_of_lt hE.2]
          have := hE.1
          simp; omega
        rw [if_pos h1, if_pos he] at hn
        cases hn
      · rw [g] at hno; cases hno
  by_cases h13 : m.hdr.cmd = 13
  · rw [exec_reset _ _ _ _ h13] at hno hl ⊢
    rcases reset_ended (cfg := cfg) (env := env) (st := st) .device with ⟨g1, g2⟩ | ⟨e, g0, g1, g2⟩
    · refine ⟨.running, by rw [g2, hm]; rfl, fun _ h => absurd h13 h, fun w hw n hn => ?_⟩
      unfold learn at hn
      have he : ¬ (Wire.Hdr.ofBytes w.bytes).flags.testBit 5 = true := by
        rw [hw.2, g1]
        simp [replyErr]
      have hk : ¬ m.asksState := fun h => absurd (h13.symm.trans h.1) (by decide)
      rw [if_neg h1, if_neg he, if_neg hk, if_pos h13] at hn
      cases hn
      rfl
    · refine ⟨a, g2.trans hm, fun _ h => absurd h13 h, fun w hw n hn => ?_⟩
      unfold learn at hn
      have hE := hr.device e g0
      have he : (Wire.Hdr.ofBytes w.bytes).flags.testBit 5 = true := by
        rw [hw.2, g1, replyErr, Nat.mod_eq_of_lt hE.2]
        have := hE.1
        simp; omega
      rw [if_neg h1, if_pos he] at hn
      exact hs n hn
  refine ⟨a, (exec_keeps h1 h13).trans hm, fun _ _ => rfl, fun w hw n hn => ?_⟩
  unfold learn at hn
  rw [if_neg h1] at hn
  by_cases he : (Wire.Hdr.ofBytes w.bytes).flags.testBit 5 = true
  · rw [if_pos he] at hn; exact hs n hn
  rw [if_neg he] at hn
  by_cases hk : m.asksState
  · rw [if_pos hk] at hn
    cases hn
    rw [exec_feature hk.1] at hl hw
    obtain ⟨_, _, q3, q4⟩ := feature_query (m := m) (env := env) hm hk hf.alloc
    by_cases hb : m.body.length < 8 ∨ leAt m.body 0 4 < 16
    · rw [(q3 hb).1] at hw
      exact absurd (hw.2.trans (by decide)) he
    · obtain ⟨q5, q6⟩ := q4 (by omega) (by omega)
      rw [q6] at hl
      cases hl
      obtain ⟨⟨hd, d1, d2⟩, _⟩ := hw
      rw [d2]
      have := leAt_field (hd ++ (enc 4 16 ++ enc 4 0x10002)) (enc 4 0) 4 a.num 24 (by simp [d1, enc_length])
        (by cases a <;> decide)
      simpa [List.append_assoc] using this
  · rw [if_neg hk, if_neg h13] at hn; exact hs n hn

end

/-! ## C75: the account -/

/-- The account is right: what the client knows is so. -/
def Knows (s : Option Nat) (st : St) : Prop := ∃ a : Mig.MSt, st.mig = some a.num ∧ ∀ n, s = some n → n = a.num

theorem call_learn {cfg : Cfg} (hi : cfg.irq.Ok) (ht : TableOk cfg.tbl) {dma : Option (Nat × Nat)} {st : St}
    (hr : Reached cfg dma st.dma st.irqs) (hk : KeptGood Heard st) {s : Option Nat} (hs : Knows s st) (op : Op) (ho : op.Fair)
    (hv : op.Resets) (hg : op.Good Heard) (hno : (call cfg st op).res.isFault = false) :
    Knows (learnCall s (op.subject st) (call cfg st op).evs) (call cfg st op).st := by
  have hsub : ∀ m, op.subject st = some m → m.hdr.cmd = 13 ∨ m.setsState → m.hdr.noReply = false := by
    intro m hm hc
    cases op with
    | run env i =>
      cases i with
      | req h body fds => cases hm; exact hg.2 h body fds rfl hc
      | _ => cases hm
    | quiesced env e =>
      unfold Op.subject at hm
      cases hp : st.pending with
      | msg m' => rw [hp] at hm; cases hm; exact (hk m hp).2 _ _ _ rfl hc
      | _ => rw [hp] at hm; cases hm
    | _ => cases hm
  have quiet : ∀ {evs : List Ev}, .detach ∉ evs → sents evs = [] → learnCall s (op.subject st) evs = s := by
    intro evs h1 h2
    unfold learnCall
    rw [if_neg h1, h2]
    cases op.subject st <;> rfl
  have hT := call_turn hi ht hr (fun m hm => (hk m hm).1) op ho hno
  obtain ⟨a, ha, hsa⟩ := hs
  generalize call cfg st op = o at hT hno
  cases hT with
  | idle hs h1 h2 => exact ⟨a, hs.mig.trans ha, by rw [quiet h2 h1]; exact hsa⟩
  | bad hs h1 h2 =>
    refine ⟨a, hs.mig.trans ha, ?_⟩
    unfold learnCall
    rw [if_neg h2, h1]
    exact hsa
  | refused m e hs h1 h2 he h3 h4 =>
    refine ⟨a, hs.mig.trans ha, ?_⟩
    cases hn : m.hdr.noReply with
    | true => rw [quiet h2 (h3 hn)]; exact hsa
    | false =>
      obtain ⟨w, hw, hi⟩ := h4 hn
      unfold learnCall
      rw [if_neg h2, h1, hw]
      dsimp only
      unfold learn
      have hf : (Wire.Hdr.ofBytes w.bytes).flags.testBit 5 = true := by rw [hi.error]; have := he.1; simp; omega
      dsimp only
      rw [if_pos hf, if_pos hf]
      split_ifs
      · exact fun n h => by cases h
      · exact hsa
  | executed env q m l hf h1 h2 h3 h4 h5 h6 h7 h8 =>
    obtain ⟨b, g1, g2, g3⟩ := exec_learn (cfg := cfg) (env := env) (st := { st with quiesced := q }) ha hf (hv env h2) h3 h6 hsa
    refine ⟨b, h4.mig.trans g1, ?_⟩
    unfold learnCall
    rw [if_neg h5, h1]
    cases hn : m.hdr.noReply with
    | true =>
      rw [h7 hn]
      have hc : ¬ (m.hdr.cmd = 13 ∨ m.setsState) := fun h => by rw [hsub m h1 h] at hn; cases hn
      rw [g2 (fun h => hc (.inr h)) (fun h => hc (.inl h))]
      exact hsa
    | false =>
      obtain ⟨w, hw, hi, _⟩ := h8 hn
      rw [hw]
      exact g3 w hi
  | reset env q h1 h2 h3 =>
    obtain ⟨ev3, he⟩ := resetQuiesced_exact hi env (st := { st with quiesced := q }) hr
    rw [he] at h3
    have h4 := h3.mig
    refine ⟨.running, ?_, ?_⟩
    · rcases reset_ended (cfg := cfg) (env := env)
        (st := { ({ st with quiesced := q } : St) with dma := emptied dma { st with quiesced := q } }) .lostConn with
        ⟨_, g⟩ | ⟨e, g, _⟩
      · refine h4.trans (g.trans ?_)
        show st.mig.map _ = _
        rw [ha]
        rfl
      · rw [(hv env h2).lost] at g; cases g
    · unfold learnCall
      rw [if_pos h1]
      intro n h
      cases h
      rfl
  | config f h1 h2 h3 => exact ⟨a, by rw [h2]; exact ha, by rw [quiet (by rw [h3]; simp) (by rw [h3]; rfl)]; exact hsa⟩
  | mark sgl c c' h1 h2 h3 h4 h5 =>
    exact ⟨a, by rw [h4]; exact ha, by rw [quiet (by rw [h5]; simp) (by rw [h5]; rfl)]; exact hsa⟩

theorem run_learn {cfg : Cfg} (hi : cfg.irq.Ok) (ht : TableOk cfg.tbl) {dma : Option (Nat × Nat)} (ops : List Op) {st : St}
    (hr : Reached cfg dma st.dma st.irqs) (hk : KeptGood Heard st) {s : Option Nat} (hs : Knows s st)
    (ho : ∀ op ∈ ops, op.Fair ∧ op.OSOk ∧ op.Resets ∧ op.Good Heard) (hno : Completes cfg st ops) :
    Knows (known cfg s st ops) (run cfg st ops).1 := by
  induction ops generalizing st s with
  | nil => exact hs
  | cons op ops ih =>
    obtain ⟨o1, o2, o3, o4⟩ := ho op (List.mem_cons_self ..)
    have h1 := call_learn hi ht hr hk hs op o1 o3 o4 hno.1
    have hrun : (run cfg st (op :: ops)).1 = (run cfg (call cfg st op).st ops).1 := by
      conv_lhs => unfold run
      dsimp only
      rw [hno.1]
      rfl
    rw [hrun]
    exact ih ((stable_reached cfg dma).kept.call hr op o2) ((closed_true cfg Heard).call st hk op o4).2 h1
      (fun op' h => ho op' (List.mem_cons_of_mem _ h)) hno.2

/-- C75: the client's account of the migration state is right after every history, deferred requests, failed requests and
lost connections included; and the state is one of the five documented ones. -/
theorem C75_account {cfg : Cfg} (hi : cfg.irq.Ok) (ht : TableOk cfg.tbl) (dma : Option (Nat × Nat)) (pci : Pci.Pci)
    (ops : List Op) (ho : ∀ op ∈ ops, op.Fair ∧ op.OSOk ∧ op.Resets ∧ op.Good Heard)
    (hno : Completes cfg (init cfg true dma pci) ops) :
    ∃ a : Mig.MSt, (run cfg (init cfg true dma pci) ops).1.mig = some a.num ∧
      ∀ n, known cfg (some 2) (init cfg true dma pci) ops = some n → n = a.num :=
  run_learn (dma := dma) hi ht ops ⟨⟨[], (fun _ h => by cases h), rfl⟩, [], rfl⟩ (fun _ h => by cases h)
    ⟨.running, rfl, fun n h => by cases h; rfl⟩ ho hno

/-! ## C75: requests, end to end -/

theorem calls_walk (q : Bool) (l : List Mig.Vfu) : calls (l.flatMap (ofVfu q)) = l.map Call.migState := by
  induction l with
  | nil => rfl
  | cons v l ih => rw [List.flatMap_cons, calls_append, ih]; rfl

section
variable {cfg : Cfg} (ht : TableOk cfg.tbl) {env : Env} {st : St} {m : Msg} (hn : Next cfg env st m) {a : Mig.MSt}
  (hm : st.mig = some a.num)
include ht hn hm

/-- What the client and the device see of a request to change the state. -/
structure StateSet (cfg : Cfg) (st : St) (m : Msg) (b : Mig.MSt) (e : Nat) (told : List Mig.Vfu) (o : Out) : Prop where
  state : o.st.mig = some b.num
  calls : calls o.evs = before cfg st m ++ told.map Call.migState
  reply : Answered m e m.body o
  dma : o.st.dma = st.dma
  irqs : o.st.irqs = st.irqs
  pci : o.st.pci = st.pci

/-- C75: a request to set the state leads the device along documented arcs to the requested state and is answered with
success; or is answered EINVAL, without any callback, if the state does not exist or cannot be reached; or stops where the
device refuses, with the error of the device.  The state is the last one the device acknowledged. -/
theorem C75_set (hs : m.setsState) (hl : 12 ≤ m.body.length) (hz : m.body.length ≤ leAt m.body 0 4)
    (h8 : leAt m.body 8 4 ≠ 8) (hcb : ∀ k e, env.migCb k = some e → Errno e) :
    let o := call cfg st (.run env (.req m.hdr m.body m.fds))
    (∃ (b : Mig.MSt) (p : List Mig.MSt), leAt m.body 8 4 = b.num ∧ Mig.Path a p b ∧ (∀ i < p.length, env.migCb i = none) ∧
      StateSet cfg st m b 0 (p.map Mig.told) o) ∨
    (((∀ b : Mig.MSt, leAt m.body 8 4 ≠ b.num) ∨ a = .stopCopy ∧ leAt m.body 8 4 = Mig.MSt.preCopy.num) ∧
      StateSet cfg st m a EINVAL [] o) ∨
    (∃ (q : List Mig.MSt) (c x : Mig.MSt) (e : Nat), Mig.Path a q c ∧ Mig.Arc c x ∧ (∀ i < q.length, env.migCb i = none) ∧
      env.migCb q.length = some e ∧ StateSet cfg st m c e (q.map Mig.told ++ [Mig.told x]) o) := by
  intro o
  have hm' : (ready cfg st m).mig = some a.num := hm
  have hx := (feature_walk (st := ready cfg st m) hm' hs hl hn.fair.alloc).2 hz
  dsimp only at hx
  have key : ∀ (b : Mig.MSt) (r : Res Unit) (tr : List Mig.Vfu) (e : Nat),
      Mig.setState env.migCb a.num (leAt m.body 8 4) = (b.num, r, tr) → r.isFault = false → replyErr r = e → e < U32 →
      StateSet cfg st m b e tr o := by
    intro b r tr e hw hf he hlt
    rw [hw] at hx
    dsimp only at hx
    have hex : exec cfg env (ready cfg st m) m = Done.pure { ready cfg st m with mig := some b.num } m.fds
        (r.map fun _ => m.body) (.bytes m.body) (tr.flatMap (ofVfu (ready cfg st m).quiesced)) :=
      (exec_feature hs.1).trans hx
    have hres : (r.map fun _ => m.body).map (fun _ => ()) = r := by cases r <;> rfl
    obtain ⟨l, sv⟩ := hn.served ht (by rw [hex]; exact (congrArg Res.isFault hres).trans hf)
    have h1 := sv.out
    have h2 := sv.tables
    have h3 := sv.reply
    have h4 := sv.calls
    rw [hex] at h1 h2 h3 h4
    unfold Done.pure at h1 h2 h3 h4
    dsimp only at h1 h2 h3 h4
    rw [hres, he, Nat.mod_eq_of_lt hlt] at h3
    have hlm : l = m.body := by cases r <;> cases h1 <;> rfl
    subst hlm
    exact ⟨h2.mig, by rw [h4, calls_walk]; rfl, h3, h2.dma, h2.irqs, h2.pci⟩
  rcases Mig.C22_last_acknowledged env.migCb a (leAt m.body 8 4) h8 with ⟨b, p, h1, h2, h3, h4⟩ | ⟨h1, h2⟩ |
    ⟨q, c, x, e, h1, h2, h3, h4, h5⟩
  · exact .inl ⟨b, p, h1, h2, h3, key b _ _ 0 h4 rfl rfl (by decide)⟩
  · exact .inr (.inl ⟨h1, key a _ _ EINVAL h2 rfl rfl (by decide)⟩)
  · exact .inr (.inr ⟨q, c, x, e, h1, h2, h3, h4, key c _ _ e h5 rfl rfl (hcb _ _ h4).2⟩)

/-- C75: a query of the state with room for the answer is answered with the state; it changes nothing. -/
theorem C75_get (hs : m.asksState) (hl : 8 ≤ m.body.length) (hz : 16 ≤ leAt m.body 0 4) :
    let o := call cfg st (.run env (.req m.hdr m.body m.fds))
    Answered m 0 (enc 4 16 ++ enc 4 0x10002 ++ enc 4 a.num ++ enc 4 0) o ∧ calls o.evs = before cfg st m ∧ Same4 o.st st := by
  intro o
  have hex : exec cfg env (ready cfg st m) m = feature env (ready cfg st m) m.body m.fds := exec_feature hs.1
  obtain ⟨q1, q2, _, q4⟩ := feature_query (st := ready cfg st m) (m := m) (env := env) (a := a) hm hs hn.fair.alloc
  obtain ⟨q5, q6⟩ := q4 hl hz
  obtain ⟨l, sv⟩ := hn.served ht (by rw [hex, q5]; rfl)
  have h1 := sv.out
  have h2 := sv.tables
  have h3 := sv.reply
  have h4 := sv.calls
  rw [hex] at h1 h2 h3 h4
  rw [q6] at h1
  rw [q5] at h3
  rw [q1] at h2
  rw [q2] at h4
  cases h1
  exact ⟨h3, by rw [h4]; exact List.append_nil _, ⟨h2.mig, h2.dma, h2.irqs, h2.pci⟩⟩

end

/-! ## C76: the limits of the connection -/

/-- A negotiation that succeeds sets the limits: descriptors per message, bytes per transfer. -/
def announce (x : Int × Nat) : Op → Res Unit → Int × Nat
  | .attach (.ok c), .ok () => (c.maxFds, c.maxXfer)
  | _, _ => x

/-- The limits the last client announced. -/
def announced (cfg : Cfg) : Int × Nat → St → List Op → Int × Nat
  | x, _, [] => x
  | x, st, op :: ops => announced cfg (announce x op (call cfg st op).res) (call cfg st op).st ops

theorem limits_held (cfg : Cfg) (x : Int × Nat) : Held cfg (fun st => (st.maxFds, st.maxXfer) = x) where
  exec := fun env st m _ h => by
    have := (tame_exec cfg env st m).same
    rw [← h, this.maxFds, this.maxXfer]
  reset := fun env st h => by
    rw [← h]
    unfold resetQuiesced
    cases dropDma cfg st.dma with
    | err e => rfl
    | fault f => rfl
    | ok y =>
      dsimp only
      have h1 := same_deviceReset cfg env { st with dma := y.1 } .lostConn
      cases Irq.reset cfg.irq (deviceReset cfg env { st with dma := y.1 } .lostConn).1.irqs <;>
        (dsimp only; rw [h1.maxFds, h1.maxXfer])
  conn := fun _ _ _ _ h => h
  config := fun _ _ h => h
  mark := fun _ _ _ _ h _ _ => h

/-- C76: the limits in force are those the last client announced in its negotiation. -/
theorem C76_limits (cfg : Cfg) (ops : List Op) (st : St) (ho : ∀ op ∈ ops, op.OSOk) (hno : Completes cfg st ops) :
    ((run cfg st ops).1.maxFds, (run cfg st ops).1.maxXfer) = announced cfg (st.maxFds, st.maxXfer) st ops := by
  induction ops generalizing st with
  | nil => rfl
  | cons op ops ih =>
    have hrun : (run cfg st (op :: ops)).1 = (run cfg (call cfg st op).st ops).1 := by
      conv_lhs => unfold run
      dsimp only
      rw [hno.1]
      rfl
    rw [hrun, ih _ (fun op' h => ho op' (List.mem_cons_of_mem _ h)) hno.2]
    have key : ((call cfg st op).st.maxFds, (call cfg st op).st.maxXfer) =
        announce (st.maxFds, st.maxXfer) op (call cfg st op).res := by
      by_cases hat : ∃ n, op = .attach n
      · obtain ⟨n, rfl⟩ := hat
        simp only [call]
        unfold attach
        by_cases h1 : st.conn = true
        · rw [if_pos h1]; cases n <;> rfl
        rw [if_neg h1]
        cases n <;> rfl
      · have h := (limits_held cfg (st.maxFds, st.maxXfer)).call (st := st) rfl op (ho op (List.mem_cons_self ..))
          (fun n h => absurd ⟨n, h⟩ hat)
        rw [h]
        cases op <;> first | rfl | exact absurd ⟨_, rfl⟩ hat
    conv_rhs => unfold announced
    rw [key]

/-! ## C76: migration data -/

/-- What the client sees of a transfer of migration data that the device answers; it changes no table. -/
structure Moved (m : Msg) (d : Mig.DataEv) (e : Nat) (l : List Byte) (st : St) (o : Out) : Prop where
  reply : Answered m e l o
  calls : calls o.evs = [.migData d]
  same : Same4 o.st st

section
variable {cfg : Cfg} (ht : TableOk cfg.tbl) {env : Env} {st : St} {m : Msg} (hn : Next cfg env st m)

theorem exec_migRead (hc : m.hdr.cmd = 17) : exec cfg env st m = migRead env st m.body m.fds := by
  unfold exec
  rw [hc]
  rfl

theorem exec_migWrite (hc : m.hdr.cmd = 18) : exec cfg env st m = migWrite env st m.body m.fds := by
  unfold exec
  rw [hc]
  rfl

theorem data_quiesce (hc : m.hdr.cmd = 17 ∨ m.hdr.cmd = 18) : needsQuiesce cfg st m = false := by
  unfold needsQuiesce
  cases cfg.hasQuiesce
  · rfl
  · rcases hc with hc | hc <;> rw [hc] <;> rfl

include ht hn in
/-- A request for migration data, with the outcome of its handler. -/
theorem data_served (hc : m.hdr.cmd = 17 ∨ m.hdr.cmd = 18) {r : Res (List Byte)} {evs : List Mig.DataEv} {b : Wire.Body}
    (hb : b = .bytes [])
    (hex : exec cfg env (ready cfg st m) m =
      Done.pure (ready cfg st m) m.fds r b (evs.map fun e => .call (.migData e) (ready cfg st m).quiesced))
    (hno : r.isFault = false) :
    let o := call cfg st (.run env (.req m.hdr m.body m.fds))
    calls o.evs = evs.map Call.migData ∧ Same4 o.st st ∧ (∀ l, r = .ok l → Answered m 0 l o) ∧
      ∀ e, r = .err e → e < U32 → Answered m e [] o := by
  intro o
  obtain ⟨l, sv⟩ := hn.served ht (by rw [hex]; cases r <;> first | rfl | cases hno)
  have h1 := sv.out
  have h2 := sv.tables
  have h3 := sv.reply
  have h4 := sv.calls
  rw [hex] at h1 h2 h3 h4
  unfold Done.pure at h1 h2 h3 h4
  dsimp only at h1 h2 h3 h4
  refine ⟨?_, ⟨h2.mig, h2.dma, h2.irqs, h2.pci⟩, ?_, ?_⟩
  · rw [h4, data_quiesce hc]
    clear h4 hex
    induction evs with
    | nil => rfl
    | cons e evs ih => simp [calls]
  · rintro l' rfl
    cases h1
    exact h3
  · rintro e rfl hlt
    rw [hb] at h1
    cases h1
    simpa [Res.map, replyErr, Nat.mod_eq_of_lt hlt] using h3

theorem nullOut_alloc {α : Type} (r : Res α) (n : Nat) : nullOut true r n = .bytes [] := by
  unfold nullOut
  cases r <;> rfl

include ht hn in
/-- C76: a read of migration data in PRE_COPY or STOP_COPY, within the limit of the connection, asks the device once for that
many bytes; the reply carries what the device produced. -/
theorem C76_read (hc : m.hdr.cmd = 17) (h : Mig.ReadAllowed st.mig st.maxXfer m.body) :
    let o := call cfg st (.run env (.req m.hdr m.body m.fds))
    ∃ room, leAt m.body 4 4 ≤ room ∧
      (∀ n data, env.readData (leAt m.body 4 4) = .ret n data → n ≤ leAt m.body 4 4 → n ≤ data.length →
        ∃ l, Moved m (.read (leAt m.body 4 4) room) 0 l st o ∧ leAt l 0 4 = 8 + n ∧ leAt l 4 4 = n ∧
          (l.drop 8).take n = data.take n ∧ l.length = m.body.length + leAt m.body 4 4) ∧
      ∀ e, env.readData (leAt m.body 4 4) = .err e → Errno e → Moved m (.read (leAt m.body 4 4) room) e [] st o := by
  intro o
  obtain ⟨room, hroom, hev⟩ := Mig.C23_read_call env.readData st.mig st.maxXfer m.body h
  have hex : exec cfg env (ready cfg st m) m = Done.pure (ready cfg st m) m.fds
      (Mig.dataRead true env.readData st.mig st.maxXfer m.body).1
      (nullOut true (Mig.dataRead true env.readData st.mig st.maxXfer m.body).1 (m.body.length + leAt m.body 4 4))
      ((Mig.dataRead true env.readData st.mig st.maxXfer m.body).2.map
        fun e => .call (.migData e) (ready cfg st m).quiesced) := by
    rw [exec_migRead hc]
    unfold migRead
    rw [hn.fair.alloc]
    rfl
  refine ⟨room, hroom, fun n data hcb h1 h2 => ?_, fun e hcb he => ?_⟩
  · obtain ⟨l, g1, g2⟩ := Mig.C23_read_reply env.readData st.mig st.maxXfer m.body h n data hcb h1 h2
    obtain ⟨s1, s2, s3, _⟩ := data_served ht hn (.inl hc) (nullOut_alloc ..) hex (by rw [g1]; rfl)
    rw [hev] at s1
    exact ⟨l, ⟨s3 l g1, s1, s2⟩, g2⟩
  · have g1 : (Mig.dataRead true env.readData st.mig st.maxXfer m.body).1 = .err e := by
      obtain ⟨hl, ⟨a, ha, hma⟩, hmx, hz⟩ := h
      have hs := (Mig.saving_num a.num).1 ⟨a, ha, rfl⟩
      unfold Mig.dataRead
      rw [if_neg (by omega), hma]
      dsimp only
      rw [if_neg (by simp only [Mig.PRE_COPY, Mig.STOP_COPY]; omega), if_neg (by omega), if_neg (by omega), if_neg (by simp),
        hcb]
    obtain ⟨s1, s2, _, s4⟩ := data_served ht hn (.inl hc) (nullOut_alloc ..) hex (by rw [g1]; rfl)
    rw [hev] at s1
    exact ⟨s4 e g1 he.2, s1, s2⟩

include ht hn in
/-- C76: every other read is answered EINVAL; the device is not asked. -/
theorem C76_read_refused (hc : m.hdr.cmd = 17) (h : ¬ Mig.ReadAllowed st.mig st.maxXfer m.body) :
    let o := call cfg st (.run env (.req m.hdr m.body m.fds))
    Answered m EINVAL [] o ∧ calls o.evs = [] ∧ Same4 o.st st := by
  intro o
  have g := Mig.C23_read_refused true env.readData st.mig st.maxXfer m.body h
  have hex : exec cfg env (ready cfg st m) m = Done.pure (ready cfg st m) m.fds
      (Mig.dataRead true env.readData st.mig st.maxXfer m.body).1
      (nullOut true (Mig.dataRead true env.readData st.mig st.maxXfer m.body).1 (m.body.length + leAt m.body 4 4))
      ((Mig.dataRead true env.readData st.mig st.maxXfer m.body).2.map
        fun e => .call (.migData e) (ready cfg st m).quiesced) := by
    rw [exec_migRead hc]
    unfold migRead
    rw [hn.fair.alloc]
    rfl
  rw [g] at hex
  obtain ⟨s1, s2, _, s4⟩ := data_served ht hn (.inl hc) rfl hex rfl
  exact ⟨s4 EINVAL rfl (by decide), s1, s2⟩

include ht hn in
/-- C76: a write of migration data in RESUMING, within the limit of the connection, hands the device exactly the bytes of
the request, once; it succeeds if the device takes all of them. -/
theorem C76_write (hc : m.hdr.cmd = 18) (h : Mig.WriteAllowed st.mig st.maxXfer m.body) :
    let o := call cfg st (.run env (.req m.hdr m.body m.fds))
    let data := (m.body.drop 8).take (leAt m.body 4 4)
    data.length = leAt m.body 4 4 ∧
    (env.writeData data = .ok (leAt m.body 4 4) → Moved m (.write data) 0 [] st o) ∧
    (∀ n, env.writeData data = .ok n → n ≠ leAt m.body 4 4 → Moved m (.write data) EINVAL [] st o) ∧
    ∀ e, env.writeData data = .error e → Errno e → Moved m (.write data) e [] st o := by
  intro o data
  have hw : Mig.dataWrite env.writeData st.mig st.maxXfer m.body = (match env.writeData data with
      | .error e => (.err e, [.write data])
      | .ok n => if n ≠ leAt m.body 4 4 then (.err EINVAL, [.write data]) else (.ok [], [.write data])) := by
    obtain ⟨h0, h1, h2, h3⟩ := h
    unfold Mig.dataWrite
    rw [if_neg (by omega), h0]
    dsimp only
    rw [if_neg (by decide), if_neg (by omega), if_neg (by omega), if_neg (by omega)]
    rfl
  have hex : exec cfg env (ready cfg st m) m = Done.pure (ready cfg st m) m.fds
      (Mig.dataWrite env.writeData st.mig st.maxXfer m.body).1 (.bytes [])
      ((Mig.dataWrite env.writeData st.mig st.maxXfer m.body).2.map
        fun e => .call (.migData e) (ready cfg st m).quiesced) := by
    rw [exec_migWrite hc]
    rfl
  refine ⟨by have := h.2.2.2; simp only [data, List.length_take, List.length_drop]; omega, fun hcb => ?_, fun n hcb hne => ?_, fun e hcb he => ?_⟩
  · rw [hcb] at hw
    dsimp only at hw
    rw [if_neg (by simp)] at hw
    rw [hw] at hex
    obtain ⟨s1, s2, s3, _⟩ := data_served ht hn (.inr hc) rfl hex rfl
    exact ⟨s3 [] rfl, s1, s2⟩
  · rw [hcb] at hw
    dsimp only at hw
    rw [if_pos hne] at hw
    rw [hw] at hex
    obtain ⟨s1, s2, _, s4⟩ := data_served ht hn (.inr hc) rfl hex rfl
    exact ⟨s4 EINVAL rfl (by decide), s1, s2⟩
  · rw [hcb] at hw
    rw [hw] at hex
    obtain ⟨s1, s2, _, s4⟩ := data_served ht hn (.inr hc) rfl hex rfl
    exact ⟨s4 e rfl he.2, s1, s2⟩

include ht hn in
/-- C76: every other write is answered EINVAL; the device is not asked. -/
theorem C76_write_refused (hc : m.hdr.cmd = 18) (h : ¬ Mig.WriteAllowed st.mig st.maxXfer m.body) :
    let o := call cfg st (.run env (.req m.hdr m.body m.fds))
    Answered m EINVAL [] o ∧ calls o.evs = [] ∧ Same4 o.st st := by
  intro o
  have g := Mig.C23_write_refused env.writeData st.mig st.maxXfer m.body h
  have hex : exec cfg env (ready cfg st m) m = Done.pure (ready cfg st m) m.fds
      (Mig.dataWrite env.writeData st.mig st.maxXfer m.body).1 (.bytes [])
      ((Mig.dataWrite env.writeData st.mig st.maxXfer m.body).2.map
        fun e => .call (.migData e) (ready cfg st m).quiesced) := by
    rw [exec_migWrite hc]
    rfl
  rw [g] at hex
  obtain ⟨s1, s2, _, s4⟩ := data_served ht hn (.inr hc) rfl hex rfl
  exact ⟨s4 EINVAL rfl (by decide), s1, s2⟩

end

section
open Demo

/-- Query of the state; a request for `n` bytes of migration data; one that carries some. -/
def queryBody : List Byte := enc 4 16 ++ enc 4 0x10002
def wantBody (n : Nat) : List Byte := enc 4 (8 + n) ++ enc 4 n
def giveBody (l : List Byte) : List Byte := enc 4 (8 + l.length) ++ enc 4 l.length ++ l

/-- The device refuses its second state change; the device fails to reset; the device has three bytes. -/
def refusing : Env := { env with migCb := fun k => if k = 1 then some EFAULT else none }
def stuck : Env := { env with resetCb := fun _ => some EINVAL }
def three : Env := { env with readData := fun _ => .ret 3 [1#8, 2#8, 3#8] }

theorem heard_req (id cmd : Nat) (body : List Byte) (h1 : id < 65536) (h2 : cmd < 65536) (h5 : body.length ≤ 1048576 + 16)
    (h6 : body ≠ [] ∨ cmd = 13) : Heard (req id cmd 0 body []) :=
  ⟨req_real _ _ _ _ _ h1 h2 (by decide) (by decide) h5 h6 (by decide),
    fun h b f he _ => by cases he; simp [hdr, Wire.Hdr.noReply]⟩

/-- The client asks for PRE_COPY, which the device defers; then for RESUMING, where the device refuses the second step; asks
where it stands; goes to STOP_COPY; and hangs up. -/
def moves : List Op :=
  [.attach (.ok { maxFds := 8, maxXfer := 1048576, pgsize := 4096 }),
   .run busy (req 1 16 0 (stateBody 6) []), .quiesced env 0, .run refusing (req 2 16 0 (stateBody 4) []),
   .run env (req 3 16 0 queryBody []), .run env (req 4 16 0 (stateBody 3) []), .run env (.lost ENOMSG [])]

theorem moves_ok : ∀ op ∈ moves, op.Fair ∧ op.OSOk ∧ op.Resets ∧ op.Good Heard := by
  have e1 : env.Resets := ⟨(fun _ _ h => by cases h), (fun _ h => by cases h), rfl⟩
  have e2 : busy.Resets := ⟨(fun _ _ h => by cases h), (fun _ h => by cases h), rfl⟩
  have e3 : refusing.Resets := ⟨(fun k e h => by
    simp only [refusing] at h; split_ifs at h; cases h; exact ⟨by decide, by decide⟩), (fun _ h => by cases h), rfl⟩
  have f3 : refusing.Fair := fair_env rfl rfl rfl (fun _ _ h => by cases h)
  have run : ∀ {e : Env} {i : Wire.In}, e.Fair → e.os = os → e.Resets → Heard i →
      (Op.run e i).Fair ∧ (Op.run e i).OSOk ∧ (Op.run e i).Resets ∧ (Op.run e i).Good Heard :=
    fun hf ho hr hh => ⟨⟨hf, hh.1⟩, (fun e' he => by cases he; exact env_ok ho), (fun e' he => by cases he; exact hr), hh⟩
  have hq : ∀ n, n < 65536 → ∀ b : List Byte, b.length ≤ 1048576 + 16 → b ≠ [] → Heard (req n 16 0 b []) :=
    fun n h b h1 h2 => heard_req n 16 b h (by decide) h1 (.inl h2)
  intro op hop
  simp only [moves, List.mem_cons, List.not_mem_nil, or_false] at hop
  rcases hop with rfl | rfl | rfl | rfl | rfl | rfl | rfl
  · exact ⟨trivial, (fun _ h => by cases h), (fun _ h => by cases h), trivial⟩
  · exact run busy_fair rfl e2 (hq 1 (by decide) _ (by decide) (by decide))
  · exact ⟨env_fair, (fun e' he => by cases he; exact env_ok rfl), (fun e' he => by cases he; exact e1), trivial⟩
  · exact run f3 rfl e3 (hq 2 (by decide) _ (by decide) (by decide))
  · exact run env_fair rfl e1 (hq 3 (by decide) _ (by decide) (by decide))
  · exact run env_fair rfl e1 (hq 4 (by decide) _ (by decide) (by decide))
  · exact run env_fair rfl e1 ⟨⟨{ cells := [], lim := [], closed := true }, rfl⟩, fun _ _ _ h => by cases h⟩

/-- The account and the state step by step: known, lost at the refusal, known again by the query. -/
example : (List.range 8).map (fun n => known cfg (some 2) (init cfg true none pci) (moves.take n)) =
      [some 2, some 2, some 2, some 6, none, some 2, some 3, some 2] ∧
    (List.range 8).map (fun n => (run cfg (init cfg true none pci) (moves.take n)).1.mig) =
      [some 2, some 2, some 2, some 6, some 2, some 2, some 3, some 2] ∧
    ∃ a : Mig.MSt, (run cfg (init cfg true none pci) moves).1.mig = some a.num ∧
      ∀ n, known cfg (some 2) (init cfg true none pci) moves = some n → n = a.num :=
  ⟨by decide +kernel, by decide +kernel, C75_account irq_ok table_ok none pci moves moves_ok
    ⟨by decide +kernel, by decide +kernel, by decide +kernel, by decide +kernel, by decide +kernel, by decide +kernel,
      by decide +kernel, trivial⟩⟩

/-- Why the device must not fail to reset when its client is gone: the next client finds a device in STOP_COPY. -/
theorem C75_stale :
    let ops : List Op := [.attach (.ok { maxFds := 8, maxXfer := 1048576, pgsize := 4096 }),
      .run env (req 1 16 0 (stateBody 3) []), .run stuck (.lost ENOMSG []),
      .attach (.ok { maxFds := 8, maxXfer := 1048576, pgsize := 4096 })]
    Completes cfg (init cfg true none pci) ops ∧ (run cfg (init cfg true none pci) ops).1.mig = some 3 ∧
      (run cfg (init cfg true none pci) ops).1.conn = true ∧
      known cfg (some 2) (init cfg true none pci) ops = some 2 := by
  refine ⟨⟨?_, ?_, ?_, ?_, trivial⟩, ?_, ?_, ?_⟩ <;> decide +kernel

/-- A client that announced transfers of up to 4 KiB brought the device to a state. -/
def inState (n : Nat) : St :=
  (run cfg (init cfg true none pci) [.attach (.ok { maxFds := 8, maxXfer := 4096, pgsize := 4096 }),
    .run env (req 1 16 0 (stateBody n) [])]).1

theorem next_in {e : Env} (hf : e.Fair) (ho : e.os = os) (hq : e.quiesce 0 = none) {n : Nat} (ha : Awaits (inState n))
    (cmd : Nat) (hp : Permitted (inState n) cmd) (body : List Byte) (h2 : cmd < 65536) (h5 : body.length ≤ 1048576 + 16)
    (h6 : body ≠ []) : Next cfg e (inState n) ⟨hdr 7 cmd 0 body.length, body, []⟩ :=
  ⟨hf, env_ok ho, req_real _ _ _ _ _ (by decide) h2 (by decide) (by decide) h5 (.inl h6) (by simp), ha, hp, fun _ => hq⟩

theorem refusing_fair : refusing.Fair := fair_env rfl rfl rfl (fun _ _ h => by cases h)
theorem three_fair : three.Fair := fair_env rfl rfl rfl (fun _ _ h => by cases h)

theorem awaits_in : Awaits (inState 6) ∧ Awaits (inState 4) ∧ (inState 6).mig = some 6 ∧ (inState 4).mig = some 4 ∧
    (inState 6).maxXfer = 4096 ∧ (inState 4).maxXfer = 4096 :=
  ⟨⟨by decide +kernel, by decide +kernel⟩, ⟨by decide +kernel, by decide +kernel⟩, by decide +kernel, by decide +kernel,
    by decide +kernel, by decide +kernel⟩

/-- From PRE_COPY to RESUMING: three steps, the second refused. -/
example : let m : Msg := ⟨hdr 7 16 0 16, stateBody 4, []⟩
    ∃ (q : List Mig.MSt) (c x : Mig.MSt) (e : Nat), Mig.Path .preCopy q c ∧ Mig.Arc c x ∧
      (∀ i < q.length, refusing.migCb i = none) ∧ refusing.migCb q.length = some e ∧
      StateSet cfg (inState 6) m c e (q.map Mig.told ++ [Mig.told x])
        (call cfg (inState 6) (.run refusing (.req m.hdr m.body m.fds))) := by
  intro m
  have hn : Next cfg refusing (inState 6) m := next_in refusing_fair rfl rfl awaits_in.1 16 (.inr (.inr (.inr (.inl rfl))))
    (stateBody 4) (by decide) (by decide) (by decide)
  have hd : (call cfg (inState 6) (.run refusing (.req m.hdr m.body m.fds))).st.mig = some 2 := by decide +kernel
  rcases C75_set table_ok hn (a := .preCopy) awaits_in.2.2.1 ⟨rfl, by decide⟩ (by decide) (by decide) (by decide)
    (fun k e h => by
      simp only [refusing] at h
      split_ifs at h
      cases h
      exact ⟨by decide, by decide⟩) with ⟨b, p, h1, _, _, h2⟩ | ⟨_, h2⟩ | h
  · rw [h2.state, show leAt m.body 8 4 = 4 from rfl] at *
    rw [← h1] at hd
    cases hd
  · rw [h2.state] at hd; cases hd
  · exact h

example : let m : Msg := ⟨hdr 7 16 0 8, queryBody, []⟩
    Answered m 0 (enc 4 16 ++ enc 4 0x10002 ++ enc 4 6 ++ enc 4 0)
      (call cfg (inState 6) (.run env (.req m.hdr m.body m.fds))) :=
  (C75_get table_ok (next_in env_fair rfl rfl awaits_in.1 16 (.inr (.inr (.inr (.inl rfl)))) queryBody (by decide) (by decide)
    (by decide)) (a := .preCopy) awaits_in.2.2.1 ⟨rfl, by decide⟩ (by decide) (by decide)).1

example : announced cfg (0, 0) (init cfg true none pci) moves = (8, 1048576) := by decide +kernel

/-- 3 of 4096 bytes are read in PRE_COPY; 4097 are too many; in RESUMING none may be read. -/
example : let m : Msg := ⟨hdr 7 17 0 8, wantBody 4096, []⟩
    ∃ room l, Moved m (.read 4096 room) 0 l (inState 6) (call cfg (inState 6) (.run three (.req m.hdr m.body m.fds))) ∧
      leAt l 4 4 = 3 ∧ (l.drop 8).take 3 = [1#8, 2#8, 3#8] := by
  intro m
  obtain ⟨room, _, h, _⟩ := C76_read table_ok (next_in three_fair rfl rfl awaits_in.1 17 (.inr (.inr (.inr (.inr rfl))))
    (wantBody 4096) (by decide) (by decide) (by decide)) rfl
    ⟨by decide, ⟨.preCopy, rfl, awaits_in.2.2.1⟩, by rw [awaits_in.2.2.2.2.1]; decide, by decide⟩
  obtain ⟨l, h1, _, h2, h3, _⟩ := h 3 [1#8, 2#8, 3#8] rfl (by decide) (by decide)
  exact ⟨room, l, h1, h2, h3⟩

example : let m : Msg := ⟨hdr 7 17 0 8, wantBody 4097, []⟩
    Answered m EINVAL [] (call cfg (inState 6) (.run env (.req m.hdr m.body m.fds))) :=
  (C76_read_refused table_ok (next_in env_fair rfl rfl awaits_in.1 17 (.inr (.inr (.inr (.inr rfl)))) (wantBody 4097) (by decide)
    (by decide) (by decide)) rfl (fun h => absurd h.2.2.1 (by rw [awaits_in.2.2.2.2.1]; decide))).1

theorem permits_in (cmd : Nat) : Permitted (inState 6) cmd ∧ Permitted (inState 4) cmd :=
  ⟨.inl (by rw [awaits_in.2.2.1]; decide), .inl (by rw [awaits_in.2.2.2.1]; decide)⟩

/-- Three bytes are written in RESUMING; in PRE_COPY this is refused. -/
example : let m : Msg := ⟨hdr 7 18 0 11, giveBody [1#8, 2#8, 3#8], []⟩
    Moved m (.write [1#8, 2#8, 3#8]) 0 [] (inState 4) (call cfg (inState 4) (.run env (.req m.hdr m.body m.fds))) :=
  (C76_write table_ok (next_in env_fair rfl rfl awaits_in.2.1 18 (permits_in 18).2 (giveBody [1#8, 2#8, 3#8]) (by decide)
    (by decide) (by decide)) rfl ⟨awaits_in.2.2.2.1, by rw [awaits_in.2.2.2.2.2]; decide, by decide, by decide⟩).2.1 rfl

example : let m : Msg := ⟨hdr 7 18 0 11, giveBody [1#8, 2#8, 3#8], []⟩
    Answered m EINVAL [] (call cfg (inState 6) (.run env (.req m.hdr m.body m.fds))) :=
  (C76_write_refused table_ok (next_in env_fair rfl rfl awaits_in.1 18 (permits_in 18).1 (giveBody [1#8, 2#8, 3#8]) (by decide)
    (by decide) (by decide)) rfl (fun h => by have := h.1; rw [awaits_in.2.2.1] at this; cases this)).1

end

end Verif.Server
