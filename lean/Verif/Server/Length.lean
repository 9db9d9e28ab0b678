import Verif.Server.Inside

/-!
# How long a reply can be

C109.  A client gives the room it has for the answer: `argsz` in most requests, the count in a region access, the size in a read of
migration data.  The replies of `Server.Model` are measured against it. -/

namespace Verif.Server
open Verif
open Verif.Dma (Fd)

/-- What the client said it can take, in bytes after the header of the reply: the header and the data of a region access
(`include/vfio-user.h:146-151`), `argsz` elsewhere (the first field).  A read of migration data with bytes after its two fields
(`include/vfio-user.h:292-296`) gets them back as padding. -/
def allowance (m : Msg) : Nat :=
  if m.hdr.cmd = 9 then 16 + leAt m.body 12 4
  else if m.hdr.cmd = 10 then 16
  else if m.hdr.cmd = 17 ∧ 8 < m.body.length then m.body.length + leAt m.body 4 4
  else leAt m.body 0 4

/-- The bytes behind a reply; a length without buffer never gets out. -/
def weight : Wire.Body → Nat
  | .bytes l => l.length
  | .null _ => 0

theorem weight_null {α : Type} (alloc : Bool) (r : Res α) (n : Nat) : weight (nullOut alloc r n) = 0 := by
  unfold nullOut
  cases alloc with
  | true => rfl
  | false =>
    cases r with
    | ok x => rfl
    | fault f => rfl
    | err e => dsimp only; by_cases h : e = ENOMEM
               · rw [if_pos h]; rfl
               · rw [if_neg h]; rfl

theorem weight_pure {st : St} {fds : List Fd} {r : Res (List Byte)} {o : Wire.Body} {evs : List Ev} {n : Nat}
    (h1 : ∀ l, r = .ok l → l.length ≤ n) (h2 : weight o ≤ n) : weight (Done.pure st fds r o evs).out ≤ n := by
  cases r with
  | ok l => exact h1 l rfl
  | err e => exact h2
  | fault f => exact h2

theorem weight_reply {st : St} {fds : List Fd} {r : Res Region.Reply} {o : Wire.Body} {n : Nat}
    (h1 : ∀ l, r = .ok l → l.body.length ≤ n) (h2 : weight o ≤ n) : weight (Done.reply st fds r o).out ≤ n := by
  cases r with
  | ok l => exact h1 l rfl
  | err e => exact h2
  | fault f => exact h2

/-! ## The handlers -/

theorem fit_length (n : Nat) (l : List Byte) : (Region.fit n l).length = n := by
  unfold Region.fit
  rw [List.length_take, List.length_append, List.length_replicate]
  omega

theorem fill_length (n : Nat) (l : List Byte) : (Mig.fill n l).length = n := by
  unfold Mig.fill
  rw [List.length_take, List.length_append, List.length_replicate]
  omega

theorem deviceInfo_length {alloc : Bool} {n : Nat} {body l : List Byte} (h : Region.deviceInfo alloc n body = .ok l) :
    l.length ≤ leAt body 0 4 := by
  unfold Region.deviceInfo at h
  split at h
  · cases h
  split at h
  · cases h
  rename_i h1 _
  cases h
  simp only [List.length_append, enc_length]
  omega

theorem irqInfo_length {cfg : Irq.Cfg} {alloc : Bool} {body l : List Byte} (h : Irq.irqInfo cfg alloc body = .ok l) :
    l.length ≤ leAt body 0 4 := by
  unfold Irq.irqInfo at h
  split at h
  · cases h
  rename_i h1
  dsimp only at h
  split at h
  · cases h
  split at h
  · cases h
  cases h
  simp only [List.length_append, enc_length]
  omega

theorem areas_length (as : List (Nat × Nat)) : (as.flatMap (fun a => enc 8 a.1 ++ enc 8 a.2)).length = as.length * 16 := by
  induction as with
  | nil => rfl
  | cons a as ih =>
    rw [List.flatMap_cons, List.length_append, ih, List.length_append, enc_length, enc_length, List.length_cons]
    omega

theorem regionInfo_length {alloc : Bool} {tbl : List Region.Reg} {body : List Byte} {l : Region.Reply}
    (h : Region.regionInfo alloc tbl body = .ok l) : l.body.length ≤ leAt body 0 4 := by
  unfold Region.regionInfo at h
  split at h
  · cases h
  rename_i h1
  cases ht : tbl[leAt body 8 4]? with
  | none => rw [ht] at h; cases h
  | some r =>
    rw [ht] at h
    dsimp only at h
    split at h
    · cases h
    generalize hc : (if r.size > 0 then Region.capsSize r else 0) = caps at h
    split at h
    · rename_i h2
      split at h
      · cases h
      rename_i h3
      cases h
      have hcs : caps = 16 + r.areas.length * 16 := by
        by_cases hz : r.size > 0
        · rw [if_pos hz] at hc
          unfold Region.capsSize at hc
          by_cases ha : r.areas.length ≠ 0
          · rw [if_pos ha] at hc; exact hc.symm
          · rw [if_neg ha] at hc; omega
        · rw [if_neg hz] at hc; omega
      simp only [Region.capBytes, List.length_append, enc_length, areas_length]
      omega
    · cases h
      simp only [List.length_append, enc_length, List.length_replicate]
      omega

theorem subBytes_size {cap : Nat} {fds fds' : List Fd} {s : Region.Sub} {b : List Byte}
    (h : Region.subBytes cap fds s = .ok (fds', b)) : b.length = 48 := by
  unfold Region.subBytes at h
  split at h
  · cases h
  · cases h
  split at h
  · cases h
  · cases h
  cases h
  simp only [List.length_append, enc_length]

theorem subsLoop_size {cap : Nat} (ss : List Region.Sub) : ∀ {fds fds' : List Fd} {b : List Byte},
    Region.subsLoop cap ss fds = .ok (fds', b) → b.length = ss.length * 48 := by
  induction ss with
  | nil => intro fds fds' b h; cases h; rfl
  | cons s ss ih =>
    intro fds fds' b h
    unfold Region.subsLoop at h
    cases h1 : Region.subBytes cap fds s with
    | err e => rw [h1] at h; cases h
    | fault f => rw [h1] at h; cases h
    | ok x =>
      obtain ⟨fds1, b1⟩ := x
      rw [h1] at h
      dsimp only at h
      cases h2 : Region.subsLoop cap ss fds1 with
      | err e => rw [h2] at h; cases h
      | fault f => rw [h2] at h; cases h
      | ok y =>
        obtain ⟨fds2, b2⟩ := y
        rw [h2] at h
        cases h
        have l1 := subBytes_size h1
        have l2 := ih h2
        rw [List.length_append, List.length_cons]
        omega

theorem regionIoFds_length {alloc : Bool} {tbl : List Region.Reg} {body : List Byte} {l : Region.Reply}
    (h : Region.regionIoFds alloc tbl body = .ok l) : l.body.length ≤ leAt body 0 4 := by
  unfold Region.regionIoFds at h
  by_cases h1 : body.length < 16
  · rw [if_pos h1] at h; cases h
  rw [if_neg h1] at h
  by_cases h2 : leAt body 4 4 ≠ 0 ∨ leAt body 12 4 ≠ 0
  · rw [if_pos h2] at h; cases h
  rw [if_neg h2] at h
  cases ht : tbl[leAt body 8 4]? with
  | none => rw [ht] at h; cases h
  | some x =>
    rw [ht] at h
    dsimp only at h
    generalize hroom : (if min ((leAt body 0 4 - 16) / 48) x.subs.length ≥ x.subs.length then x.subs.length else 0) = room at h
    have hr : room * 48 ≤ leAt body 0 4 - 16 := by
      by_cases hg : min ((leAt body 0 4 - 16) / 48) x.subs.length ≥ x.subs.length
      · rw [if_pos hg] at hroom; omega
      · rw [if_neg hg] at hroom; omega
    split at h
    · cases h
    split at h
    · cases h
    rename_i h3
    split at h
    · cases h
    split at h
    · split at h
      · cases h
      split at h
      · cases h
      · cases h
      · rename_i hl
        cases h
        have l := subsLoop_size _ hl
        rw [List.length_take] at l
        simp only [List.length_append, enc_length]
        omega
    · cases h
      simp only [List.length_append, enc_length, List.length_replicate]
      omega

theorem handleAccess_length {h : Region.Handler} {alloc : Bool} {tbl : List Region.Reg} {sc w : Bool} {body l : List Byte}
    (hr : (Region.handleAccess h alloc tbl sc w body).1 = .ok l) : l.length ≤ 16 + if w then 0 else leAt body 12 4 := by
  unfold Region.handleAccess at hr
  dsimp only at hr
  split at hr
  · cases hr
  split at hr
  · cases hr
  split at hr
  · cases hr; exact Nat.zero_le _
  split at hr
  · cases hr
  split at hr
  · cases hr
  split at hr
  · split at hr
    · cases hr
    · cases hr
      cases w <;> simp [List.length_append, enc_length, fit_length]; omega
  · cases hr
  · cases hr

theorem accessErrOut_weight (h : Region.Handler) (alloc : Bool) (tbl : List Region.Reg) (sc w : Bool) (body : List Byte) :
    weight (accessErrOut h alloc tbl sc w body) ≤ 16 + if w then 0 else leAt body 12 4 := by
  unfold accessErrOut
  split
  · exact Nat.zero_le _
  split
  · exact Nat.zero_le _
  split
  · exact Nat.zero_le _
  · dsimp only [weight]
    rw [List.length_append, List.length_take]
    cases w <;> simp [fit_length]

theorem dirtyPageGet_length {c : Dma.Ctl} {hint addr len pg s : Nat} {buf bm : List Byte}
    (h : (Dma.dirtyPageGet c hint addr len pg s buf).2 = .done bm) : bm.length = buf.length := by
  unfold Dma.dirtyPageGet at h
  revert h
  repeat' split
  all_goals intro h
  all_goals try (cases h; done)
  rename_i hb
  cases h
  exact (Dma.getBits_len hb).2

theorem unmapTail_some {u : Bool} {c : Dma.Ctl} {addr size : Nat} {x : Option (List Byte)} {y : Option (List Byte)}
    (h : (Dma.unmapTail u c addr size x).2.1 = .ok y) : y = x := by
  unfold Dma.unmapTail at h
  revert h
  split
  · intro h; cases h; rfl
  · intro h; cases h
  · intro h; cases h

/-- The bitmap that comes with an unmap has the size the client asked for. -/
theorem handleUnmap_length {alloc u : Bool} {c : Dma.Ctl} {addr size : Nat} {k : Dma.UnmapKind} {bm : List Byte}
    (h : (Dma.handleUnmap alloc u c addr size k).2.1 = .ok (some bm)) :
    ∃ pg bs buf hint, k = .getDirty pg bs buf hint ∧ bm.length = buf.length := by
  unfold Dma.handleUnmap at h
  by_cases ha : alloc = false
  · rw [if_pos ha] at h; cases h
  rw [if_neg ha] at h
  cases k with
  | all =>
    dsimp only at h
    revert h
    split
    · intro h; cases h
    · intro h; cases h
    · intro h; cases h
  | plain => exact absurd (unmapTail_some h) (by simp)
  | getDirty pg bs buf hint =>
    refine ⟨pg, bs, buf, hint, rfl, ?_⟩
    dsimp only at h
    cases hd : Dma.dirtyPageGet c hint addr size pg bs buf with
    | mk c' g =>
      rw [hd] at h
      have hg : (Dma.dirtyPageGet c hint addr size pg bs buf).2 = g := by rw [hd]
      cases g with
      | done b =>
        have := unmapTail_some h
        cases this
        exact dirtyPageGet_length hg
      | ret0 =>
        have := unmapTail_some h
        cases this
        rfl
      | noErrno => cases h
      | err e => cases h
      | fault f => cases h

theorem validUnmap_room {body : List Byte} (h : validUnmap body = .ok ()) :
    24 ≤ leAt body 0 4 ∧ (leAt body 4 4 = UNMAP_DIRTY → 40 + leAt body 32 8 ≤ leAt body 0 4) := by
  have hl : ∀ s n, validUnmap.lengths body s n = .ok () → s ≤ body.length ∧ n ≤ leAt body 0 4 ∧ leAt body 0 4 ≤ 1048576 := by
    intro s n h
    unfold validUnmap.lengths at h
    split at h
    · cases h
    split at h
    · cases h
    rename_i h1 h2
    simp only [Region.MAX_XFER] at h2
    omega
  unfold validUnmap at h
  cases hf : rd body 4 4 with
  | err e => rw [hf] at h; cases h
  | fault f => rw [hf] at h; cases h
  | ok flags =>
    have e1 : flags = leAt body 4 4 := by
      unfold rd at hf
      split at hf
      · cases hf; rfl
      · cases hf
    rw [hf] at h
    dsimp only at h
    by_cases hd : flags = UNMAP_DIRTY
    · rw [if_pos hd] at h
      cases hb : rd body 32 8 with
      | err e => rw [hb] at h; cases h
      | fault f => rw [hb] at h; cases h
      | ok bs =>
        have e2 : bs = leAt body 32 8 := by
          unfold rd at hb
          split at hb
          · cases hb; rfl
          · cases hb
        rw [hb] at h
        obtain ⟨_, h2, h3⟩ := hl _ _ h
        have : satadd64 40 bs = 40 + bs := by
          unfold satadd64 at h2 ⊢
          unfold add64 at h2 ⊢
          have hlt := leAt_lt body 8 32
          rw [← e2] at hlt
          dsimp only at h2 ⊢
          by_cases hc : (40 + bs) % U64 < 40
          · rw [if_pos hc] at h2; simp only [U64] at h2; omega
          · rw [if_neg hc] at h2 ⊢; simp only [U64] at h2 hc ⊢; omega
        rw [this] at h2
        exact ⟨by omega, fun _ => by omega⟩
    · rw [if_neg hd] at h
      have hnd : ¬ leAt body 4 4 = UNMAP_DIRTY := by rw [← e1]; exact hd
      refine ⟨?_, fun h => absurd h hnd⟩
      by_cases ha : flags = UNMAP_ALL
      · rw [if_pos ha] at h
        revert h
        split
        · intro h; cases h
        · intro h; cases h
        split
        · intro h; cases h
        split
        · intro h; cases h
        · intro h; cases h
        split
        · intro h; cases h
        intro h
        exact (hl _ _ h).2.1
      · rw [if_neg ha] at h
        by_cases hz : flags = 0
        · rw [if_pos hz] at h; exact (hl _ _ h).2.1
        · rw [if_neg hz] at h; cases h

theorem dmaUnmap_weight (cfg : Cfg) (env : Env) (hm : ∀ n, (env.malloc n).length = n) (st : St) (c : Dma.Ctl) (body : List Byte)
    (fds : List Fd) : weight (dmaUnmap cfg env st c body fds).out ≤ leAt body 0 4 := by
  unfold dmaUnmap
  by_cases h1 : body = []
  · rw [if_pos h1]; exact Nat.zero_le _
  rw [if_neg h1]
  cases hv : validUnmap body with
  | err e => exact Nat.zero_le _
  | fault f => exact Nat.zero_le _
  | ok u =>
    obtain ⟨r1, r2⟩ := validUnmap_room hv
    dsimp only
    cases ho : (Dma.handleUnmap env.alloc cfg.dma.hasUnreg c (leAt body 8 8) (leAt body 16 8) (unmapKind env body)).2.1 with
    | ok b =>
      cases b with
      | none =>
        dsimp only [weight]
        rw [List.length_take]
        omega
      | some bm =>
        obtain ⟨pg, bs, buf, hint, hk, hb⟩ := handleUnmap_length ho
        have hd : leAt body 4 4 = UNMAP_DIRTY ∧ buf.length = leAt body 32 8 := by
          unfold unmapKind at hk
          by_cases ha : leAt body 4 4 = UNMAP_ALL
          · rw [if_pos ha] at hk; cases hk
          rw [if_neg ha] at hk
          by_cases hd : leAt body 4 4 = UNMAP_DIRTY
          · rw [if_pos hd] at hk
            cases hk
            exact ⟨hd, hm _⟩
          · rw [if_neg hd] at hk; cases hk
        have := r2 hd.1
        dsimp only [weight]
        rw [List.length_append, List.length_take, hb, hd.2]
        omega
    | okEmpty => exact Nat.zero_le _
    | err e => exact Nat.zero_le _
    | fault f => exact Nat.zero_le _

theorem dmaGet_length {env : Mig.FEnv} {dma : Option Dma.Ctl} {argsz flags : Nat} {body l : List Byte}
    (h : (Mig.dmaGet env dma argsz flags body).2 = .ok l) : l.length ≤ argsz := by
  unfold Mig.dmaGet at h
  revert h
  split
  · intro h; cases h
  split
  · split
    · intro h; cases h
    · intro h; cases h
    rename_i n _
    split
    · intro h; cases h
    rename_i hn
    split
    · intro h; cases h
    dsimp only
    split
    · rename_i hd
      intro h
      cases h
      have := dirtyPageGet_length (congrArg Prod.snd hd)
      rw [List.length_replicate] at this
      simp only [List.length_append, enc_length]
      omega
    · intro h
      cases h
      simp only [List.length_append, enc_length, List.length_replicate]
      omega
    · intro h; cases h
    · intro h; cases h
    · intro h; cases h
  · intro h; cases h

theorem map_body {r : Res Unit} {body l : List Byte} (h : r.map (fun _ => body) = .ok l) : l = body := by
  cases r with
  | ok u => cases h; rfl
  | err e => cases h
  | fault f => cases h

theorem handleFeature_length {env : Mig.FEnv} {st : Mig.FSt} {body l : List Byte}
    (h : (Mig.handleFeature env st body).2.1 = .ok l) : l.length ≤ leAt body 0 4 := by
  unfold Mig.handleFeature at h
  by_cases h1 : body.length < 8
  · rw [if_pos h1] at h; cases h
  rw [if_neg h1] at h
  dsimp only at h
  split at h
  · cases h
  split at h
  · cases h
  split at h
  · unfold Mig.featGet at h
    split at h
    · dsimp only at h
      unfold Mig.migGet at h
      split at h
      · cases h
      split at h
      · cases h
      dsimp only at h
      split at h
      · cases h
        simp only [List.length_append, enc_length]
        omega
      split at h
      · cases h
        simp only [List.length_append, enc_length]
        omega
      · cases h
    split at h
    · exact dmaGet_length h
    · cases h
  split at h
  · unfold Mig.featSet at h
    split at h
    · cases h
    split at h
    · cases h
    split at h
    · rw [map_body h]; omega
    split at h
    · rw [map_body h]; omega
    · cases h
  · dsimp only at h
    unfold Mig.featProbe at h
    split at h
    · cases h
    split at h
    · cases h
    split at h
    · cases h
    cases h
    omega

theorem featureErrOut_weight (env : Env) (st : St) (body : List Byte) : weight (featureErrOut env st body) ≤ leAt body 0 4 := by
  unfold featureErrOut
  dsimp only
  repeat' split
  all_goals first | exact Nat.zero_le _ | skip
  all_goals (dsimp only [weight]; omega)

theorem dataRead_length {alloc : Bool} {cb : Nat → Mig.ReadCb} {mig : Option Nat} {mx : Nat} {body l : List Byte}
    (h : (Mig.dataRead alloc cb mig mx body).1 = .ok l) :
    l.length = body.length + leAt body 4 4 ∧ leAt body 4 4 ≤ mx ∧ 8 + leAt body 4 4 ≤ leAt body 0 4 := by
  unfold Mig.dataRead at h
  dsimp only at h
  split at h
  · cases h
  split at h
  · cases h
  split at h
  · cases h
  split at h
  · cases h
  split at h
  · cases h
  split at h
  · cases h
  split at h
  · cases h
  · cases h
    refine ⟨?_, by omega, by omega⟩
    simp only [List.length_append, enc_length, fill_length, List.length_replicate]
    omega

theorem dataWrite_length {cb : List Byte → Except Nat Nat} {mig : Option Nat} {mx : Nat} {body l : List Byte}
    (h : (Mig.dataWrite cb mig mx body).1 = .ok l) : l = [] := by
  unfold Mig.dataWrite at h
  dsimp only at h
  revert h
  repeat' split
  all_goals intro h
  all_goals first | (cases h; rfl) | cases h

/-- No handler leaves more than the client can take. -/
theorem exec_weight (cfg : Cfg) (env : Env) (hm : ∀ n, (env.malloc n).length = n) (st : St) (m : Msg) :
    weight (exec cfg env st m).out ≤ allowance m := by
  have hel : ∀ n, m.hdr.cmd = n → n ≠ 9 → n ≠ 10 → n ≠ 17 → allowance m = leAt m.body 0 4 := by
    intro n h h9 h10 h17
    unfold allowance
    rw [h, if_neg h9, if_neg h10, if_neg (fun x => h17 x.1)]
  refine exec_elim (P := fun d => weight d.out ≤ allowance m) cfg env st m ?_ ?_ ?_ ?_ ?_ ?_ ?_ ?_ ?_ ?_ ?_ ?_ ?_ ?_ ?_
  · exact fun _ _ => Nat.zero_le _
  · exact fun c _ _ => dmaMap_elim (P := fun d => weight d.out ≤ allowance m) cfg env st c m.body m.fds
      (fun _ _ => Nat.zero_le _) (fun _ _ => Nat.zero_le _)
  · intro c h _
    rw [hel _ h (by decide) (by decide) (by decide)]
    exact dmaUnmap_weight cfg env hm st c m.body m.fds
  · intro h
    rw [hel _ h (by decide) (by decide) (by decide)]
    exact weight_pure (fun l hl => deviceInfo_length hl) (by rw [weight_null]; exact Nat.zero_le _)
  · intro h
    rw [hel _ h (by decide) (by decide) (by decide)]
    exact weight_reply (fun l hl => regionInfo_length hl) (by rw [weight_null]; exact Nat.zero_le _)
  · intro h
    rw [hel _ h (by decide) (by decide) (by decide)]
    exact weight_reply (fun l hl => regionIoFds_length hl) (by rw [weight_null]; exact Nat.zero_le _)
  · intro h
    rw [hel _ h (by decide) (by decide) (by decide)]
    exact weight_pure (fun l hl => irqInfo_length hl) (by rw [weight_null]; exact Nat.zero_le _)
  · exact fun _ => Nat.zero_le _
  · intro h
    have : allowance m = 16 + leAt m.body 12 4 := by unfold allowance; rw [h]; rfl
    rw [this]
    exact weight_pure (fun l hl => handleAccess_length hl) (accessErrOut_weight ..)
  · intro h
    have : allowance m = 16 := by unfold allowance; rw [h]; rfl
    rw [this]
    exact weight_pure (fun l hl => handleAccess_length hl) (accessErrOut_weight ..)
  · exact fun _ => Nat.zero_le _
  · intro h
    rw [hel _ h (by decide) (by decide) (by decide)]
    exact weight_pure (fun l hl => handleFeature_length hl) (featureErrOut_weight ..)
  · intro h
    refine weight_pure (fun l hl => ?_) (by rw [weight_null]; exact Nat.zero_le _)
    obtain ⟨l1, _, l3⟩ := dataRead_length hl
    have h9 : ¬ m.hdr.cmd = 9 := by rw [h]; decide
    have h10 : ¬ m.hdr.cmd = 10 := by rw [h]; decide
    unfold allowance
    rw [if_neg h9, if_neg h10]
    by_cases hb : 8 < m.body.length
    · rw [if_pos ⟨h, hb⟩]; omega
    · rw [if_neg (fun x => hb x.2)]; omega
  · exact fun _ => weight_pure (fun l hl => by rw [dataWrite_length hl]; exact Nat.zero_le _) (Nat.zero_le _)
  · exact fun _ => Nat.zero_le _

/-! ## What is sent -/

theorem reply_length (snd : Wire.Send) (h : Wire.Hdr) (b : Wire.Body) (fds : List (Option Fd)) (err : Nat) :
    ∀ w ∈ (Wire.reply snd h b fds err).2, w.bytes.length ≤ 16 + weight b := by
  have hgo : ∀ (hd : Wire.Hdr) l, ∀ w ∈ (Wire.sendIovec.go snd hd l fds).2, w.bytes.length ≤ 16 + l.length := by
    intro hd l w
    unfold Wire.sendIovec.go
    by_cases hf : fds.any Option.isNone = true
    · rw [if_pos hf]; exact fun h => by cases h
    rw [if_neg hf]
    dsimp only
    cases snd (hd.bytes ++ l).length with
    | error e => exact fun h => by cases h
    | ok n =>
      intro h
      rw [List.mem_singleton.mp h]
      dsimp only
      rw [List.length_take, List.length_append]
      have : hd.bytes.length = 16 := by simp only [Wire.Hdr.bytes, List.length_append, enc_length]
      omega
  unfold Wire.reply Wire.sendIovec
  cases b with
  | bytes l => exact hgo _ _
  | null n =>
    cases n with
    | zero => exact hgo _ []
    | succ n => exact fun w h => by cases h

theorem resetCtx_silent (cfg : Cfg) (env : Env) (k : Nat) (st : St) : sents (resetCtx cfg env k st).evs = [] :=
  (resetCtx_trace st env k).1

theorem doReply_length (cfg : Cfg) (env : Env) (k : Nat) (st : St) (h : Wire.Hdr) (b : Wire.Body) (fds : List (Option Fd))
    (err : Nat) : ∀ w ∈ sents (doReply cfg env k st h b fds err).evs, w.bytes.length ≤ 16 + weight b := by
  have hr := reply_length env.snd h b fds (err % U32)
  unfold doReply
  by_cases hn : h.noReply = true
  · rw [if_pos hn]; exact fun w h => by cases h
  rw [if_neg hn]
  dsimp only
  revert hr
  generalize Wire.reply env.snd h b fds (err % U32) = r
  obtain ⟨r1, ws⟩ := r
  intro hr
  cases r1 with
  | ok u => dsimp only; rw [sents_map]; exact hr
  | error e =>
    dsimp only
    by_cases he : e = ECONNRESET ∨ e = ENOMSG
    · rw [if_pos he]
      dsimp only
      rw [sents_append, sents_map, resetCtx_silent, List.append_nil]
      exact hr
    · rw [if_neg he]
      dsimp only
      rw [sents_map]
      exact hr

theorem handleRequest_length (cfg : Cfg) (env : Env) (hm : ∀ n, (env.malloc n).length = n) (k : Nat) (st : St) (m : Msg) :
    ∀ w ∈ sents (handleRequest cfg env k st m).evs, w.bytes.length ≤ 16 + allowance m := by
  have hx := exec_weight cfg env hm st m
  obtain ⟨e1, _⟩ := inner_quiet (tame_exec cfg env st m).evs
  obtain ⟨c1, _⟩ := inner_quiet (inner_closes (exec cfg env st m).left)
  have hd := doReply_length cfg env k (exec cfg env st m).st m.hdr (exec cfg env st m).out (exec cfg env st m).outFds
    (replyErr (exec cfg env st m).res)
  unfold handleRequest finish
  dsimp only
  revert hd
  generalize doReply cfg env k (exec cfg env st m).st m.hdr (exec cfg env st m).out (exec cfg env st m).outFds
    (replyErr (exec cfg env st m).res) = o
  intro hd
  by_cases hf : (exec cfg env st m).res.isFault = true
  · rw [if_pos hf]
    dsimp only
    rw [sents_cons (by simp), e1]
    exact fun w h => by cases h
  rw [if_neg hf]
  by_cases ho : o.res.isFault = true
  · rw [if_pos ho]
    dsimp only
    rw [List.cons_append, sents_cons (by simp), sents_append, e1, List.nil_append]
    exact fun w h => (hd w h).trans (by omega)
  · rw [if_neg ho]
    dsimp only
    rw [List.cons_append, List.cons_append, List.cons_append, sents_cons (by simp), sents_append, sents_append, sents_append, e1, c1]
    simp only [sents, List.filterMap_cons, List.filterMap_nil, List.append_nil, List.nil_append]
    exact fun w h => (hd w h).trans (by omega)

theorem refuse_length (cfg : Cfg) (env : Env) (k : Nat) (st : St) (h : Wire.Hdr) (fds : List Fd) (err : Nat) :
    ∀ w ∈ sents (refuse cfg env k st h fds err).evs, w.bytes.length ≤ 16 := by
  obtain ⟨c1, _⟩ := inner_quiet (inner_closes (fds.map some))
  have hd := doReply_length cfg env k st h (.bytes []) [] err
  unfold refuse
  dsimp only
  revert hd
  generalize doReply cfg env k st h (.bytes []) [] err = o
  intro hd
  by_cases ho : o.res.isFault = true
  · rw [if_pos ho]; exact hd
  · rw [if_neg ho]
    dsimp only
    rw [sents_append, sents_append, c1]
    simp only [sents, List.filterMap_cons, List.filterMap_nil, List.append_nil]
    exact hd

theorem dispatch_length (cfg : Cfg) (env : Env) (hm : ∀ n, (env.malloc n).length = n) (st : St) (m : Msg) :
    ∀ w ∈ sents (dispatch cfg env st m).evs, w.bytes.length ≤ 16 + allowance m := by
  obtain ⟨q1, _⟩ := quiesce_quiet (env.quiesce 0) st.quiesced
  unfold dispatch
  by_cases hs : shouldExec st.mig m.hdr.cmd = false
  · rw [if_pos hs]
    exact fun w h => (refuse_length cfg env 0 st m.hdr m.fds EINVAL w h).trans (by omega)
  rw [if_neg hs]
  by_cases hq : needsQuiesce cfg st m = true
  · rw [if_pos hq]
    dsimp only
    revert q1
    generalize bracket .quiesce (.quiesce (env.quiesce 0)) st.quiesced = br
    intro q1
    cases env.quiesce 0 with
    | none =>
      dsimp only
      rw [sents_append, q1, List.nil_append]
      exact handleRequest_length cfg env hm 1 _ m
    | some e =>
      dsimp only
      by_cases he : e = EBUSY
      · rw [if_pos he]
        dsimp only
        rw [q1]
        exact fun w h => by cases h
      · rw [if_neg he]
        dsimp only
        rw [sents_append, q1, List.nil_append]
        exact fun w h => (refuse_length cfg env 1 st m.hdr m.fds e w h).trans (by omega)
  · rw [if_neg hq]
    exact handleRequest_length cfg env hm 0 st m

/-- `malloc` hands out what it was asked for. -/
def Op.Mallocs : Op → Prop
  | .run env _ => ∀ n, (env.malloc n).length = n
  | .quiesced env _ => ∀ n, (env.malloc n).length = n
  | _ => True

/-- The room of the client of the request a call answers. -/
def Op.space (st : St) (op : Op) : Nat := ((op.subject st).map allowance).getD 0

/-- **C109**: whatever a call sends, in any state, is a header and at most what the client said it can take: 16 bytes and the count for
a region read, 16 for a region write, `argsz` for all other requests.  The request is the one just received, or the one that waited for
the device to quiesce; a message that is no request is answered by a header alone.  The exception are reads of migration data with bytes
after their two fields, see `C109_trailing`. -/
theorem C109_room (cfg : Cfg) (st : St) (op : Op) (hm : op.Mallocs) :
    ∀ w ∈ sents (call cfg st op).evs, w.bytes.length ≤ 16 + op.space st := by
  have none : ∀ {l : List Ev}, sents l = [] → ∀ w ∈ sents l, w.bytes.length ≤ 16 + op.space st := by
    intro l h w hw
    rw [h] at hw
    cases hw
  cases op with
  | run env i =>
    unfold call poll
    dsimp only
    by_cases hp : st.pending ≠ .none
    · rw [if_pos hp]; exact none rfl
    rw [if_neg hp]
    by_cases hn : st.conn = false
    · rw [if_pos hn]; exact none rfl
    rw [if_neg hn]
    cases i with
    | again => exact none rfl
    | failed e leak => exact none rfl
    | lost e leak =>
      dsimp only
      refine none ?_
      rw [sents_cons (by simp)]
      exact resetCtx_silent ..
    | bad h fds e =>
      dsimp only
      rw [sents_cons (by simp)]
      exact fun w hw => (refuse_length cfg env 0 st h fds e w hw).trans (by omega)
    | req h body fds =>
      dsimp only
      rw [sents_cons (by simp)]
      exact dispatch_length cfg env hm st ⟨h, body, fds⟩
  | quiesced env e =>
    unfold call deviceQuiesced
    dsimp only
    by_cases hq : cfg.hasQuiesce = false ∨ st.pending = .none
    · rw [if_pos hq]; exact none rfl
    rw [if_neg hq]
    dsimp only
    rw [sents_cons (by simp)]
    by_cases he : e = 0
    · rw [if_pos he]
      cases hp : st.pending with
      | none => exact none rfl
      | ctxReset => exact none (resetQuiesced_sents ..)
      | msg m =>
        dsimp only
        have : Op.space st (.quiesced env e) = allowance m := by
          unfold Op.space Op.subject
          dsimp only
          rw [hp]
          rfl
        rw [this]
        exact handleRequest_length cfg env hm 0 _ m
    · rw [if_neg he]
      cases st.pending with
      | none => exact none rfl
      | ctxReset => exact none rfl
      | msg m =>
        dsimp only
        refine none ?_
        rw [sents_append, (inner_quiet (inner_closes (m.fds.map some))).1]
        rfl
  | transfer env lost =>
    unfold call transfer
    dsimp only
    by_cases hp : st.pending ≠ .none
    · rw [if_pos hp]; exact none rfl
    rw [if_neg hp]
    by_cases hl : lost = true ∧ st.conn = true
    · rw [if_pos hl]; exact none (resetCtx_silent ..)
    · rw [if_neg hl]; exact none rfl
  | attach n =>
    unfold call attach
    dsimp only
    by_cases hp : st.conn = true
    · rw [if_pos hp]; exact none rfl
    · rw [if_neg hp]; cases n <;> exact none rfl
  | config f => exact none rfl
  | mark sgl =>
    unfold call
    cases hd : st.dma with
    | none => exact none rfl
    | some c => dsimp only; cases Dma.sglMark c sgl <;> exact none rfl
  | trigger wr sub =>
    unfold call
    exact none (inner_quiet (inner_flatMap (inner_ofIrq (q := st.quiesced)) _)).1

/-! ## Over a whole history -/

/-- A property of requests goes over to the one kept. -/
theorem call_kept (P : Msg → Prop) (cfg : Cfg) (st : St) (op : Op)
    (hop : ∀ env h b f, op = .run env (.req h b f) → P ⟨h, b, f⟩) (hf : ∀ m, st.pending = .msg m → P m) :
    ∀ m, (call cfg st op).st.pending = .msg m → P m := by
  have keep : ∀ {p q : Pending}, Keeps p q → (∀ m, p = .msg m → P m) → ∀ m, q = .msg m → P m := by
    intro p q hk hp m hm
    rcases hk with h | h
    · exact hp m (h ▸ hm)
    · rw [h] at hm; cases hm
  cases op with
  | run env i =>
    unfold call poll
    dsimp only
    by_cases hp : st.pending ≠ .none
    · rw [if_pos hp]; exact hf
    rw [if_neg hp]
    by_cases hn : st.conn = false
    · rw [if_pos hn]; exact hf
    rw [if_neg hn]
    cases i with
    | again => exact hf
    | failed e leak => exact hf
    | lost e leak => exact keep (resetCtx_keeps ..) hf
    | bad h fds e => exact keep (refuse_keeps ..) hf
    | req h body fds =>
      have hh := hop env h body fds rfl
      dsimp only
      unfold dispatch
      by_cases he : shouldExec st.mig h.cmd = false
      · rw [if_pos he]; exact keep (refuse_keeps ..) hf
      rw [if_neg he]
      by_cases hq : needsQuiesce cfg st ⟨h, body, fds⟩ = true
      · rw [if_pos hq]
        dsimp only
        cases env.quiesce 0 with
        | some e =>
          dsimp only
          by_cases hb : e = EBUSY
          · rw [if_pos hb]
            intro m hm
            dsimp only at hm
            cases hm
            exact hh
          · rw [if_neg hb]; exact keep (refuse_keeps ..) hf
        | none => exact keep (handleRequest_keeps cfg env 1 { st with quiesced := true } ⟨h, body, fds⟩) hf
      · rw [if_neg hq]; exact keep (handleRequest_keeps cfg env 0 st ⟨h, body, fds⟩) hf
  | quiesced env e =>
    unfold call deviceQuiesced
    dsimp only
    by_cases hq : cfg.hasQuiesce = false ∨ st.pending = .none
    · rw [if_pos hq]; exact hf
    · rw [if_neg hq]; intro m hm; cases hm
  | transfer env lost =>
    unfold call transfer
    dsimp only
    by_cases hp : st.pending ≠ .none
    · rw [if_pos hp]; exact hf
    rw [if_neg hp]
    by_cases hl : lost = true ∧ st.conn = true
    · rw [if_pos hl]; exact keep (resetCtx_keeps ..) hf
    · rw [if_neg hl]; exact hf
  | attach n =>
    unfold call attach
    dsimp only
    by_cases hp : st.conn = true
    · rw [if_pos hp]; exact hf
    · rw [if_neg hp]; cases n <;> exact hf
  | config f => exact hf
  | mark sgl =>
    unfold call
    cases hd : st.dma with
    | none => exact hf
    | some c => dsimp only; cases Dma.sglMark c sgl <;> exact hf
  | trigger wr sub => exact hf

/-- **C109**, over histories: a client that never makes room for more than `n` bytes never gets a message of more than `n` bytes and a
header, however many requests it sends, whatever the device does in between, and also if its requests are kept until the device has
quiesced. -/
theorem C109_client (cfg : Cfg) (n : Nat) (ops : List Op) : ∀ (st : St), (∀ m, st.pending = .msg m → allowance m ≤ n) →
    (∀ op ∈ ops, op.Mallocs) → (∀ op ∈ ops, ∀ env h b f, op = .run env (.req h b f) → allowance ⟨h, b, f⟩ ≤ n) →
    ∀ w ∈ sents (run cfg st ops).2, w.bytes.length ≤ 16 + n := by
  induction ops with
  | nil => intro st _ _ _ w hw; cases hw
  | cons op ops ih =>
    intro st hp hm hr w hw
    have h1 := C109_room cfg st op (hm op (List.mem_cons_self ..))
    have hs : op.space st ≤ n := by
      unfold Op.space
      cases op with
      | run env i =>
        cases i with
        | req h b f => exact hr _ (List.mem_cons_self ..) env h b f rfl
        | _ => exact Nat.zero_le _
      | quiesced env e =>
        unfold Op.subject
        dsimp only
        cases hq : st.pending with
        | msg m => exact hp m hq
        | _ => exact Nat.zero_le _
      | _ => exact Nat.zero_le _
    have h2 : ∀ w ∈ sents (call cfg st op).evs, w.bytes.length ≤ 16 + n := fun w hw => (h1 w hw).trans (by omega)
    unfold run at hw
    dsimp only at hw
    by_cases hf : (call cfg st op).res.isFault = true
    · rw [if_pos hf] at hw; exact h2 w hw
    · rw [if_neg hf] at hw
      dsimp only at hw
      rw [sents_append, sents_cons (by simp)] at hw
      rcases List.mem_append.mp hw with h | h
      · exact h2 w h
      · exact ih _ (call_kept (fun m => allowance m ≤ n) cfg st op (hr op (List.mem_cons_self ..)) hp)
          (fun o ho => hm o (List.mem_cons_of_mem _ ho)) (fun o ho => hr o (List.mem_cons_of_mem _ ho)) w h

/-! ## What it does not say -/

section
open Demo

/-- The lengths of the messages of a history. -/
def lengths (st : St) (ops : List Op) : List Nat := (sents (run cfg st ops).2).map (·.bytes.length)

/-- The client sends one byte too many with its request for 16 bytes of migration data, and says that it has room for the 24 bytes of the
answer: it gets 25. -/
theorem C109_trailing :
    let b : List Byte := enc 4 24 ++ enc 4 16 ++ [0#8]
    lengths { st with mig := some Mig.PRE_COPY } [.run env (req 1 17 0 b [])] = [16 + 25] ∧ leAt b 0 4 = 24 := by
  decide +kernel

/-- What the client announced when it connected plays no part: one that takes 32 bytes of data at a time, and makes room for 4096, gets
the 64 bytes for the pages of 2 MiB in one message, behind the echo of its request. -/
theorem C109_negotiated :
    lengths { st with conn := false } [.attach (.ok { maxFds := 8, maxXfer := 32, pgsize := 4096 }),
      .run env (req 1 2 0 (mapBody 0x100000) [5]), .run env (req 2 16 0 logBody []),
      .run env (req 3 16 0 (enc 4 4096 ++ enc 4 (0x10000 + 8) ++ enc 8 0x100000 ++ enc 8 0x200000 ++ enc 8 0x1000) [])] =
    [16, 16 + 24, 16 + 32 + 64] := by
  decide +kernel

/-- Eight bytes of BAR 0, the device information with too little room, a mapping and an unmap, the latter after the device has
quiesced; `C109_client` applies with 24. -/
example :
    let ops : List Op := [.run env (req 1 9 0 (enc 8 8 ++ enc 4 0 ++ enc 4 8) []),
      .run env (req 2 4 0 (enc 4 15 ++ enc 4 0 ++ enc 4 0 ++ enc 4 0) []), .run env (req 3 2 0 (mapBody 0x100000) [5]),
      .run busy (req 4 3 0 (unmapBody 0x100000) []), .quiesced env 0]
    lengths st ops = [16 + 24, 16, 16, 16 + 24] ∧ (∀ op ∈ ops, op.Mallocs) := by
  refine ⟨by decide +kernel, ?_⟩
  simp [Op.Mallocs, env, busy]

end

end Verif.Server
