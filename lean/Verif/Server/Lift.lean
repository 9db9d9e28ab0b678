import Verif.Server.Lemmas
import Verif.Mig.Props
import Verif.Irq.Props
import Verif.Dma.Props3

/-!
# The server on top of its components

What a call does to the DMA table is a history of DMA operations, what it does to the interrupt table a history of interrupt
operations; so the theorems about all histories of those tables hold in every state of the server. -/

namespace Verif.Server
open Verif
open Verif.Dma (Fd)

/-- `close` calls on `x` in a trace. -/
def closesOf (evs : List Ev) (x : Fd) : Nat := evs.count (.close x)

theorem closesOf_append (a b : List Ev) (x : Fd) : closesOf (a ++ b) x = closesOf a x + closesOf b x :=
  List.count_append ..

theorem closesOf_nil (x : Fd) : closesOf [] x = 0 := rfl

theorem closesOf_cons_ne {e : Ev} {x : Fd} (h : e ≠ .close x) (l : List Ev) : closesOf (e :: l) x = closesOf l x := by
  unfold closesOf
  rw [List.count_cons_of_ne h]

theorem closesOf_bracket (t : CbType) (c : Call) (q : Bool) (x : Fd) : closesOf (bracket t c q) x = 0 := by
  simp [closesOf, bracket]

theorem closesOf_dma (q : Bool) (evs : List Dma.Ev) (x : Fd) :
    closesOf (evs.flatMap (ofDma q)) x = Dma.closes evs x := by
  induction evs with
  | nil => rfl
  | cons e evs ih =>
    rw [List.flatMap_cons, closesOf_append, ih]
    cases e <;> simp [ofDma, closesOf, bracket, Dma.closes, List.count_cons, Nat.add_comm]

theorem closesOf_irq (q : Bool) (evs : List Irq.Ev) (x : Fd) :
    closesOf (evs.flatMap (ofIrq q)) x = evs.count (.close x) := by
  induction evs with
  | nil => rfl
  | cons e evs ih =>
    rw [List.flatMap_cons, closesOf_append, ih]
    cases e <;> simp [ofIrq, closesOf, List.count_cons, Nat.add_comm]

theorem closesOf_flatMap {α : Type} (f : α → List Ev) (l : List α) (x : Fd) (h : ∀ a, closesOf (f a) x = 0) :
    closesOf (l.flatMap f) x = 0 := by
  induction l with
  | nil => rfl
  | cons a l ih => rw [List.flatMap_cons, closesOf_append, h, ih]

theorem closesOf_map {α : Type} (f : α → Ev) (l : List α) (x : Fd) (h : ∀ a, f a ≠ .close x) :
    closesOf (l.map f) x = 0 := by
  induction l with
  | nil => rfl
  | cons a l ih => rw [List.map_cons, closesOf_cons_ne (h a), ih]

theorem closesOf_pci (q : Bool) (e : Pci.Ev) (x : Fd) : closesOf (ofPci q e) x = 0 := by
  cases e <;> simp [ofPci, closesOf, bracket]

theorem closesOf_closes (l : List (Option Fd)) (x : Fd) : closesOf (closes l) x = l.count (some x) := by
  unfold closes
  induction l with
  | nil => rfl
  | cons a l ih =>
    cases a with
    | none => simpa using ih
    | some y =>
      simp only [List.filterMap_cons, id, List.map_cons, closesOf, List.count_cons] at ih ⊢
      rw [ih]; simp

theorem closesOf_afterCalls (cfg : Cfg) (env : Env) (q : Bool) (cs : List Region.Call) (x : Fd) :
    ∀ p, closesOf (afterCalls cfg env q p cs).2 x = 0 := by
  induction cs with
  | nil => intro p; rfl
  | cons c cs ih =>
    intro p
    cases c with
    | config off buf w =>
      simp only [afterCalls, closesOf_append]
      rw [closesOf_flatMap _ _ _ (fun e => closesOf_pci q e x), ih]
    | cb r off buf w =>
      simp only [afterCalls]
      rw [closesOf_cons_ne (by simp), ih]

theorem closesOf_deviceReset (cfg : Cfg) (env : Env) (st : St) (r : Reason) (x : Fd) :
    closesOf (deviceReset cfg env st r).2.2 x = 0 := by
  unfold deviceReset
  by_cases h : cfg.hasReset = true
  · rw [if_pos h]
    dsimp only
    cases env.resetCb r <;> exact closesOf_bracket ..
  · rw [if_neg h]; rfl

theorem deviceReset_tables (cfg : Cfg) (env : Env) (st : St) (r : Reason) :
    (deviceReset cfg env st r).1.dma = st.dma ∧ (deviceReset cfg env st r).1.irqs = st.irqs := by
  unfold deviceReset
  by_cases h : cfg.hasReset = true
  · rw [if_pos h]
    dsimp only
    cases env.resetCb r <;> exact ⟨rfl, rfl⟩
  · rw [if_neg h]; exact ⟨rfl, rfl⟩

/-! ## Requests -/

/-- The DMA map request in the payload of a message. -/
def mapReq (body : List Byte) (fds : List Fd) : Dma.MapReq :=
  { flags := leAt body 4 4, offset := leAt body 8 8, addr := leAt body 16 8, size := leAt body 24 8, fds }

theorem mapReq_bounded (body : List Byte) (fds : List Fd) : (mapReq body fds).Bounded := by
  have h1 : U64 = 256 ^ 8 := by decide
  have h2 : U32 = 256 ^ 4 := by decide
  unfold Dma.MapReq.Bounded
  rw [h1, h2]
  exact ⟨leAt_lt body 8 16, leAt_lt body 8 24, leAt_lt body 8 8, leAt_lt body 4 4⟩

/-- What a request did to the tables: nothing, one DMA operation, or one interrupt operation. -/
inductive Touch (cfg : Cfg) (env : Env) (st : St) (m : Msg) (d : Done) : Prop where
  | none : d.st.dma = st.dma → d.st.irqs = st.irqs → d.left = m.fds.map some → (∀ x, closesOf d.evs x = 0) →
      Touch cfg env st m d
  | map (c : Dma.Ctl) : m.hdr.cmd = Wire.CMD_DMA_MAP → st.dma = some c →
      d.st.dma = some (Dma.step cfg.dma c (.map env.os (mapReq m.body m.fds))).1 → d.st.irqs = st.irqs →
      d.left = (Dma.step cfg.dma c (.map env.os (mapReq m.body m.fds))).2.1.left →
      (∀ x, closesOf d.evs x = Dma.closes (Dma.step cfg.dma c (.map env.os (mapReq m.body m.fds))).2.2 x) →
      Touch cfg env st m d
  | dma (c : Dma.Ctl) (op : Dma.Op) : st.dma = some c → (∀ os q, op ≠ .map os q) →
      (m.hdr.cmd ≠ Wire.CMD_DMA_UNMAP → ∀ m a s k, op ≠ .unmap m a s k) →
      d.st.dma = some (Dma.step cfg.dma c op).1 → d.st.irqs = st.irqs → d.left = m.fds.map some →
      (∀ x, closesOf d.evs x = Dma.closes (Dma.step cfg.dma c op).2.2 x) → Touch cfg env st m d
  | irq : m.hdr.cmd = Wire.CMD_SET_IRQS → d.st.dma = st.dma → d.st.irqs = (Irq.handleSet cfg.irq env.eventfd st.irqs m.body (m.fds.map some)).irqs →
      d.left = (Irq.handleSet cfg.irq env.eventfd st.irqs m.body (m.fds.map some)).fds →
      (∀ x, closesOf d.evs x =
        (Irq.handleSet cfg.irq env.eventfd st.irqs m.body (m.fds.map some)).evs.count (.close x)) →
      Touch cfg env st m d

theorem dmaGet_touch (env : Mig.FEnv) (dma : Option Dma.Ctl) (argsz flags : Nat) (body : List Byte) :
    (Mig.dmaGet env dma argsz flags body).1 = dma ∨ ∃ c hint a l p s b, dma = some c ∧
      (Mig.dmaGet env dma argsz flags body).1 = some (Dma.dirtyPageGet c hint a l p s b).1 := by
  unfold Mig.dmaGet
  cases dma with
  | none => exact .inl rfl
  | some c =>
    dsimp only
    split
    · rename_i iova len pg _ _ _
      cases getBitmapSize len pg with
      | err e => exact .inl rfl
      | fault f => exact .inl rfl
      | ok n =>
        dsimp only
        by_cases h1 : argsz < 32 + n
        · rw [if_pos h1]; exact .inl rfl
        rw [if_neg h1]
        by_cases h2 : env.alloc = false
        · rw [if_pos h2]; exact .inl rfl
        rw [if_neg h2]
        refine .inr ⟨c, env.hint, iova, len, pg, n, List.replicate n 0#8, rfl, ?_⟩
        cases h : Dma.dirtyPageGet c env.hint iova len pg n (List.replicate n 0#8) with
        | mk c' r => cases r <;> rfl
    · exact .inl rfl

theorem feature_touch (env : Mig.FEnv) (st : Mig.FSt) (body : List Byte) (cfg : Dma.Cfg) :
    (Mig.handleFeature env st body).1.dma = st.dma ∨ ∃ c op, st.dma = some c ∧ (∀ os q, op ≠ .map os q) ∧
      (∀ m a s k, op ≠ .unmap m a s k) ∧
      (Mig.handleFeature env st body).1.dma = some (Dma.step cfg c op).1 ∧ (Dma.step cfg c op).2.2 = [] := by
  rcases Mig.feature_cases env st body with he | ⟨m, hm, _, ⟨_, he⟩ | ⟨_, he⟩ | ⟨_, _, he⟩⟩
  · exact .inl (by rw [he])
  · rw [he]
    unfold Mig.featGet
    by_cases h1 : Mig.isMigFeature (leAt body 4 4 % 65536) = true
    · rw [if_pos h1]; exact .inl rfl
    rw [if_neg h1]
    by_cases h2 : Mig.isDmaFeature (leAt body 4 4 % 65536) = true
    · rw [if_pos h2]
      rcases dmaGet_touch env st.dma (leAt body 0 4) (leAt body 4 4) body with h | ⟨c, hint, a, l, p, s, b, hc, h⟩
      · exact .inl h
      · exact .inr ⟨c, .query hint a l p s b, hc, by simp, by simp, h, rfl⟩
    · rw [if_neg h2]; exact .inl rfl
  · rw [he]
    unfold Mig.featSet
    by_cases h0 : leAt body 0 4 < body.length
    · rw [if_pos h0]; exact .inl rfl
    rw [if_neg h0]
    by_cases h3 : env.alloc = false
    · rw [if_pos h3]; exact .inl rfl
    rw [if_neg h3]
    by_cases h1 : Mig.isMigFeature (leAt body 4 4 % 65536) = true
    · rw [if_pos h1]; exact .inl rfl
    rw [if_neg h1]
    by_cases h2 : Mig.isDmaFeature (leAt body 4 4 % 65536) = true
    · rw [if_pos h2]
      dsimp only
      unfold Mig.dmaSet
      cases hd : st.dma with
      | none => exact .inl rfl
      | some c =>
        dsimp only
        by_cases h4 : leAt body 4 4 % 65536 = Mig.FEAT_LOG_START
        · rw [if_pos h4]
          cases rd body 8 8 with
          | ok pg => exact .inr ⟨c, .logStart env.ca pg, rfl, by simp, by simp, rfl, rfl⟩
          | err e => exact .inl rfl
          | fault f => exact .inl rfl
        rw [if_neg h4]
        by_cases h5 : leAt body 4 4 % 65536 = Mig.FEAT_LOG_STOP
        · rw [if_pos h5]; exact .inr ⟨c, .logStop, rfl, by simp, by simp, rfl, rfl⟩
        · rw [if_neg h5]; exact .inl rfl
    · rw [if_neg h2]; exact .inl rfl
  · exact .inl (by rw [he])

theorem exec_touch (cfg : Cfg) (env : Env) (st : St) (m : Msg) : Touch cfg env st m (exec cfg env st m) := by
  have nop : ∀ r o (evs : List Ev) (p : Pci.Pci), (∀ x, closesOf evs x = 0) →
      Touch cfg env st m (Done.pure { st with pci := p } m.fds r o evs) :=
    fun r o evs p h => .none rfl rfl rfl h
  refine exec_elim cfg env st m (P := Touch cfg env st m) ?_ ?_ ?_ ?_ ?_ ?_ ?_ ?_ ?_ ?_ ?_ ?_ ?_ ?_ ?_
  · exact fun _ _ => nop _ _ _ st.pci (fun x => rfl)
  · intro c hcmd hc
    refine dmaMap_elim (P := Touch cfg env st m) cfg env st c m.body m.fds
      (fun r _ => .none rfl rfl rfl (fun x => rfl)) ?_
    rintro o rfl
    exact .map c hcmd hc rfl rfl rfl (fun x => closesOf_dma ..)
  · intro c hcmd hc
    refine dmaUnmap_elim (P := Touch cfg env st m) cfg env st c m.body m.fds
      (fun r _ => .none rfl rfl rfl (fun x => rfl)) ?_
    intro r l _ _
    exact .dma c (.unmap env.alloc (leAt m.body 8 8) (leAt m.body 16 8) (unmapKind env m.body)) hc (by simp)
      (fun h => absurd hcmd h) rfl rfl rfl
      (fun x => closesOf_dma ..)
  · exact fun _ => nop _ _ _ st.pci (fun x => rfl)
  · exact fun _ => .none rfl rfl rfl (fun x => rfl)
  · exact fun _ => .none rfl rfl rfl (fun x => rfl)
  · exact fun _ => nop _ _ _ st.pci (fun x => rfl)
  · exact fun h => .irq h rfl rfl rfl (fun x => closesOf_irq ..)
  · exact fun _ => nop _ _ _ _ (fun x => closesOf_afterCalls ..)
  · exact fun _ => nop _ _ _ _ (fun x => closesOf_afterCalls ..)
  · exact fun _ => .none (deviceReset_tables ..).1 (deviceReset_tables ..).2 rfl (fun x => closesOf_deviceReset ..)
  · intro _
    have hz : ∀ x, closesOf ((Mig.handleFeature env.feat { mig := st.mig, dma := st.dma } m.body).2.2.flatMap
        (ofVfu st.quiesced)) x = 0 := fun x => closesOf_flatMap _ _ _ (fun v => closesOf_bracket ..)
    rcases feature_touch env.feat { mig := st.mig, dma := st.dma } m.body cfg.dma with h | ⟨c, op, hc, ho, hu, h, he⟩
    · exact .none h rfl rfl hz
    · exact .dma c op hc ho (fun _ => hu) h rfl rfl (fun x => by rw [he]; exact hz x)
  · exact fun _ => nop _ _ _ st.pci (fun x => closesOf_map _ _ _ (by simp))
  · exact fun _ => nop _ _ _ st.pci (fun x => closesOf_map _ _ _ (by simp))
  · exact fun _ => nop _ _ _ st.pci (fun x => rfl)

end Verif.Server
