import Verif.Irq.Inv
import Mathlib.Data.List.Count

namespace Verif.Irq
open Verif

def ind (v : Option Fd) (x : Fd) : Nat := if v = some x then 1 else 0

theorem ind_none (x : Fd) : ind none x = 0 := by simp [ind]

theorem count_set' {l : List (Option Fd)} {i : Nat} {v : Option Fd} (w : Option Fd) (x : Fd) (h : l[i]? = some v) :
    (l.set i w).count (some x) + ind v x = l.count (some x) + ind w x := by
  obtain ⟨hi, he⟩ := List.getElem?_eq_some_iff.1 h
  have hc := List.count_set (a := w) (b := some x) (l := l) (i := i) hi
  rw [he] at hc
  have hpos : v = some x → 0 < l.count (some x) := by
    rintro rfl
    exact List.count_pos_iff.2 (he ▸ List.getElem_mem hi)
  have hv : (if (v == some x) = true then 1 else 0) = ind v x := by simp [ind]
  have hw : (if (w == some x) = true then 1 else 0) = ind w x := by simp [ind]
  rw [hv, hw] at hc
  have : ind v x ≤ l.count (some x) := by
    by_cases h1 : v = some x
    · have := hpos h1
      simp only [ind, if_pos h1]
      omega
    · simp [ind, h1]
  omega

/-- In how many places a descriptor is bound. -/
def Irqs.times (st : Irqs) (x : Fd) : Nat := ind st.err x + ind st.req x + st.efds.count (some x)

theorem times_put {st : Irqs} {s : Slot} {v : Option Fd} (w : Option Fd) (x : Fd) (h : st.get s = some v) :
    (st.put s w).times x + ind v x = st.times x + ind w x := by
  cases s with
  | err =>
    simp only [Irqs.get, Option.some.injEq] at h
    subst h
    simp only [Irqs.put, Irqs.times]
    omega
  | req =>
    simp only [Irqs.get, Option.some.injEq] at h
    subst h
    simp only [Irqs.put, Irqs.times]
    omega
  | vec i =>
    have := count_set' w x h
    simp only [Irqs.put, Irqs.times]
    omega

theorem closeSlot_times {st st' : Irqs} {s : Slot} {ev : List Ev} (x : Fd) (h : closeSlot st s = .ok (st', ev)) :
    st.times x = st'.times x + ev.count (.close x) ∧ (st'.get s = some none) := by
  unfold closeSlot at h
  rcases hg : st.get s with _ | _ | fd
  · rw [hg] at h; cases h
  · rw [hg] at h
    injection h with h
    injection h with h1 h2
    subst h1 h2
    exact ⟨by simp, hg⟩
  · rw [hg] at h
    injection h with h
    injection h with h1 h2
    subst h1 h2
    refine ⟨?_, get_put_self hg⟩
    have := times_put none x hg
    have hc : List.count (Ev.close x) [Ev.close fd] = ind (some fd) x := by
      rw [List.count_singleton]
      simp [ind]
    rw [hc]
    rw [ind_none] at this
    omega

theorem disableLoop_times (index n : Nat) (x : Fd) : ∀ (i : Nat) (st st' : Irqs) (ev : List Ev),
    disableLoop index n i st = .ok (st', ev) → st.times x = st'.times x + ev.count (.close x) := by
  induction n with
  | zero =>
    intro i st st' ev h
    injection h with h
    injection h with h1 h2
    subst h1 h2
    simp
  | succ n ih =>
    intro i st st' ev h
    simp only [disableLoop] at h
    cases hs : disableSlot index i with
    | none => rw [hs] at h; cases h
    | some s =>
      rw [hs] at h
      simp only at h
      cases hc : closeSlot st s with
      | err e => rw [hc] at h; cases h
      | fault f => rw [hc] at h; cases h
      | ok p =>
        obtain ⟨st1, ev1⟩ := p
        rw [hc] at h
        simp only at h
        cases hd : disableLoop index n (i + 1) st1 with
        | err e => rw [hd] at h; cases h
        | fault f => rw [hd] at h; cases h
        | ok p =>
          obtain ⟨st2, ev2⟩ := p
          rw [hd] at h
          injection h with h
          injection h with h1 h2
          subst h1 h2
          have e1 := (closeSlot_times x hc).1
          have e2 := ih _ _ _ _ hd
          rw [List.count_append]
          omega

theorem disable_times {cfg : Cfg} {st st' : Irqs} {index start count : Nat} {ev : List Ev} (x : Fd)
    (h : disable cfg st index start count = .ok (st', ev)) : st.times x = st'.times x + ev.count (.close x) := by
  unfold disable at h
  split at h
  · cases h
  · split at h
    · cases h
    · exact disableLoop_times _ _ x _ _ _ _ h

theorem resetLoop_times (n : Nat) (x : Fd) : ∀ (i : Nat) (st st' : Irqs) (ev : List Ev),
    resetLoop n i st = .ok (st', ev) → st.times x = st'.times x + ev.count (.close x) := by
  induction n with
  | zero =>
    intro i st st' ev h
    injection h with h
    injection h with h1 h2
    subst h1 h2
    simp
  | succ n ih =>
    intro i st st' ev h
    simp only [resetLoop] at h
    cases hc : closeSlot st (.vec i) with
    | err e => rw [hc] at h; cases h
    | fault f => rw [hc] at h; cases h
    | ok p =>
      obtain ⟨st1, ev1⟩ := p
      rw [hc] at h
      simp only at h
      cases hd : resetLoop n (i + 1) st1 with
      | err e => rw [hd] at h; cases h
      | fault f => rw [hd] at h; cases h
      | ok p =>
        obtain ⟨st2, ev2⟩ := p
        rw [hd] at h
        injection h with h
        injection h with h1 h2
        subst h1 h2
        have e1 := (closeSlot_times x hc).1
        have e2 := ih _ _ _ _ hd
        rw [List.count_append]
        omega

theorem reset_times {cfg : Cfg} {st st' : Irqs} {ev : List Ev} (x : Fd) (h : reset cfg st = .ok (st', ev)) :
    st.times x = st'.times x + ev.count (.close x) := by
  unfold reset at h
  cases h1 : disable cfg st REQ 0 0 with
  | err e => rw [h1] at h; cases h
  | fault f => rw [h1] at h; cases h
  | ok p =>
    obtain ⟨st1, ev1⟩ := p
    rw [h1] at h
    simp only at h
    cases h2 : disable cfg st1 ERR 0 0 with
    | err e => rw [h2] at h; cases h
    | fault f => rw [h2] at h; cases h
    | ok p =>
      obtain ⟨st2, ev2⟩ := p
      rw [h2] at h
      simp only at h
      cases h3 : resetLoop st2.efds.length 0 st2 with
      | err e => rw [h3] at h; cases h
      | fault f => rw [h3] at h; cases h
      | ok p =>
        obtain ⟨st3, ev3⟩ := p
        rw [h3] at h
        injection h with h
        injection h with ha hb
        subst ha hb
        have e1 := disable_times x h1
        have e2 := disable_times x h2
        have e3 := resetLoop_times _ x _ _ _ _ h3
        rw [List.count_append, List.count_append]
        omega

theorem signalLoop_noclose (index : Nat) (wr : Nat → Option Nat) (x : Fd) (st : Irqs) (sel : List Bool) :
    ∀ (i k : Nat), (signalLoop index wr sel i k st).2.count (.close x) = 0 := by
  induction sel with
  | nil => intro i k; rfl
  | cons b sel ih =>
    intro i k
    simp only [signalLoop]
    split
    · rfl
    · exact ih _ _
    · split
      · split
        · rfl
        · simp only [List.count_cons, ih]
          rfl
      · exact ih _ _

theorem bindLoop_times (index count : Nat) (x : Fd) (n : Nat) : ∀ (i j : Nat) (st st' : Irqs)
    (fds fds' : List (Option Fd)) (ev : List Ev), bindLoop index count n i j st fds = .ok (st', fds', ev) →
    st.times x + fds.count (some x) = st'.times x + fds'.count (some x) + ev.count (.close x) := by
  induction n with
  | zero =>
    intro i j st st' fds fds' ev h
    injection h with h
    injection h with h1 h2
    injection h2 with h2 h3
    subst h1 h2 h3
    simp
  | succ n ih =>
    intro i j st st' fds fds' ev h
    simp only [bindLoop] at h
    cases hc : closeSlot st (efdSlot index i) with
    | err e => rw [hc] at h; cases h
    | fault f => rw [hc] at h; cases h
    | ok p =>
      obtain ⟨st1, ev1⟩ := p
      rw [hc] at h
      simp only at h
      rcases hj : fds[j]? with _ | _ | fd
      · rw [hj] at h; cases h
      · rw [hj] at h; cases h
      · rw [hj] at h
        simp only at h
        obtain ⟨e1, hn⟩ := closeSlot_times x hc
        generalize hr : bindLoop index count n (i + 1) (j + 1) _ _ = r at h
        rcases r with ⟨st2, fds2, ev2⟩ | e | f
        · injection h with h
          injection h with h1 h2
          injection h2 with h2 h3
          subst h1 h2 h3
          have e2 := ih _ _ _ _ _ _ _ hr
          rw [List.count_append]
          by_cases hlt : j < count
          · rw [if_pos hlt, if_pos hlt] at e2
            have e3 := times_put (some fd) x hn
            have hcs := count_set' none x hj
            rw [ind_none] at e3 hcs
            omega
          · rw [if_neg hlt, if_neg hlt] at e2
            have e3 := times_put none x hn
            omega
        · cases h
        · cases h

/-- Nothing is lost or made up by a request, whatever it contains. -/
theorem set_times (cfg : Cfg) (wr : Nat → Option Nat) (st : Irqs) (body : List Byte) (fds : List (Option Fd)) (x : Fd) :
    let o := handleSet cfg wr st body fds
    st.times x + fds.count (some x) = o.irqs.times x + o.fds.count (some x) + o.evs.count (.close x) := by
  dsimp only
  unfold handleSet
  cases validate cfg body fds.length with
  | err e => simp
  | fault f => simp
  | ok u =>
    dsimp only
    split
    · unfold setState
      split
      · rename_i ev h
        split at h
        · cases h
        · split at h
          · injection h with h; subst h; simp
          · split at h
            · cases h
            · split at h
              · cases h
              · injection h with h; subst h; simp
      · simp
      · simp
    · split
      · cases hd : disable cfg st (Req.ofBytes body).index (Req.ofBytes body).start (Req.ofBytes body).count with
        | err e => simp
        | fault f => simp
        | ok p =>
          have := disable_times x (st' := p.1) (ev := p.2) hd
          dsimp only
          omega
      · split
        · have := signalLoop_noclose (Req.ofBytes body).index wr x st
            (List.replicate (add32 (Req.ofBytes body).start (Req.ofBytes body).count - (Req.ofBytes body).start) true)
            (Req.ofBytes body).start 0
          simp only [dataNone, this]
          omega
        · split
          · generalize hb : bindLoop _ _ _ _ _ _ _ = r
            rcases r with ⟨st2, fds2, ev2⟩ | e | f
            · exact bindLoop_times _ _ x _ _ _ _ _ _ _ _ hb
            · simp
            · simp
          · split
            · simp only [dataBool]
              split
              · simp
              · simp only [signalLoop_noclose]
                omega
            · simp

end Verif.Irq
