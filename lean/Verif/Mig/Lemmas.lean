import Verif.Mig.Model
import Verif.Mig.Spec
import Mathlib.Tactic.IntervalCases

namespace Verif.Mig
open Verif

/-- What the device is told about a state. -/
def told : MSt → Vfu
  | .stop => .stop
  | .running => .running
  | .stopCopy => .stopAndCopy
  | .resuming => .resume
  | .preCopy => .preCopy

/-- The route a request takes. -/
def route : MSt → MSt → Option (List MSt)
  | .stop, .stop => some []
  | .stop, .running => some [.running]
  | .stop, .stopCopy => some [.stopCopy]
  | .stop, .resuming => some [.resuming]
  | .stop, .preCopy => some [.running, .preCopy]
  | .running, .stop => some [.stop]
  | .running, .running => some []
  | .running, .stopCopy => some [.stop, .stopCopy]
  | .running, .resuming => some [.stop, .resuming]
  | .running, .preCopy => some [.preCopy]
  | .stopCopy, .stop => some [.stop]
  | .stopCopy, .running => some [.stop, .running]
  | .stopCopy, .stopCopy => some []
  | .stopCopy, .resuming => some [.stop, .resuming]
  | .stopCopy, .preCopy => none
  | .resuming, .stop => some [.stop]
  | .resuming, .running => some [.stop, .running]
  | .resuming, .stopCopy => some [.stop, .stopCopy]
  | .resuming, .resuming => some []
  | .resuming, .preCopy => some [.stop, .running, .preCopy]
  | .preCopy, .stop => some [.running, .stop]
  | .preCopy, .running => some [.running]
  | .preCopy, .stopCopy => some [.stopCopy]
  | .preCopy, .resuming => some [.running, .stop, .resuming]
  | .preCopy, .preCopy => some []

/-- Following a route with callbacks that may refuse. -/
def walk (cb : Nat → Option Nat) : Nat → MSt → List MSt → Nat × Res Unit × List Vfu
  | _, a, [] => (a.num, .ok (), [])
  | k, a, x :: p =>
    match cb k with
    | some e => (a.num, .err e, [told x])
    | none =>
      let (s, r, tr) := walk cb (k + 1) x p
      (s, r, told x :: tr)

theorem setState_route (cb : Nat → Option Nat) (a b : MSt) :
    setState cb a.num b.num = match route a b with
      | none => (a.num, .err EINVAL, [])
      | some p => walk cb 0 a p := by
  rcases h0 : cb 0 with _ | e0 <;> rcases h1 : cb 1 with _ | e1 <;> rcases h2 : cb 2 with _ | e2 <;>
  cases a <;> cases b <;>
  simp +decide [setState, setLoop, next, nextState, deviceState, route, walk, MSt.num, h0, h1, h2, toVfu,
    told, ERROR, STOP, RUNNING, STOP_COPY, RESUMING, PRE_COPY]

theorem num_inj {a b : MSt} (h : a.num = b.num) : a = b := by
  cases a <;> cases b <;> first | rfl | (simp [MSt.num] at h)

/-- Targets that are not states of the device: nothing happens. -/
theorem setState_bad (cb : Nat → Option Nat) (a : MSt) (t : Nat) (h8 : t ≠ 8) (h : ∀ b : MSt, t ≠ b.num) :
    setState cb a.num t = (a.num, .err EINVAL, []) := by
  have hd := h .stop
  have h2 := h .running
  have h3 := h .stopCopy
  have h4 := h .resuming
  have h6 := h .preCopy
  simp only [MSt.num] at hd h2 h3 h4 h6
  by_cases hgt : t > NUM_STATES
  · simp only [setState, hgt, if_true]
  · have : t = 0 ∨ t = 5 ∨ t = 7 := by simp only [NUM_STATES] at hgt; omega
    rcases this with rfl | rfl | rfl <;> cases a <;> rfl

theorem setState_eight (cb : Nat → Option Nat) (a : MSt) :
    setState cb a.num 8 = (a.num, .fault .oob, []) := by
  cases a <;> rfl

theorem route_path {a b : MSt} {p : List MSt} (h : route a b = some p) : Path a p b := by
  cases a <;> cases b <;> simp only [route, Option.some.injEq, reduceCtorEq] at h <;> subst h <;>
    repeat first | exact Path.nil _ | (refine Path.cons (by constructor) ?_)

/-- Distance along arcs. -/
def dist : MSt → MSt → Nat
  | .stopCopy, .preCopy => 3
  | a, b => ((route a b).map List.length).getD 0

theorem dist_arc {a b : MSt} (h : Arc a b) (c : MSt) : dist a c ≤ dist b c + 1 := by
  cases h <;> cases c <;> decide

theorem dist_le {a c : MSt} {q : List MSt} (h : Path a q c) : dist a c ≤ q.length := by
  induction h with
  | nil a => cases a <;> decide
  | cons hab _ ih => have := dist_arc hab; simp only [List.length_cons]; exact Nat.le_trans (this _) (by omega)

theorem route_len {a b : MSt} {p : List MSt} (h : route a b = some p) : p.length = dist a b := by
  cases a <;> cases b <;> simp only [route, Option.some.injEq, reduceCtorEq] at h <;> subst h <;> rfl

theorem route_interior {a b : MSt} {p : List MSt} (h : route a b = some p) :
    ∀ x ∈ p.dropLast, x.saving = false := by
  cases a <;> cases b <;> simp only [route, Option.some.injEq, reduceCtorEq] at h <;> subst h <;> decide

theorem path_snoc {a b c : MSt} {p : List MSt} (h : Path a p b) (hbc : Arc b c) : Path a (p ++ [c]) c := by
  induction h with
  | nil a => exact .cons hbc (.nil _)
  | cons hab _ ih => exact .cons hab (ih hbc)

/-- The outcome of following a route. -/
theorem walk_spec (cb : Nat → Option Nat) (p : List MSt) : ∀ (k : Nat) (a b : MSt), Path a p b →
    (walk cb k a p = (b.num, .ok (), p.map told) ∧ ∀ i < p.length, cb (k + i) = none) ∨
    (∃ (q : List MSt) (c x : MSt) (e : Nat), Path a q c ∧ Arc c x ∧ q ++ [x] <+: p ∧
      (∀ i < q.length, cb (k + i) = none) ∧ cb (k + q.length) = some e ∧
      walk cb k a p = (c.num, .err e, (q ++ [x]).map told)) := by
  induction p with
  | nil =>
    intro k a b h
    cases h
    exact .inl ⟨rfl, by simp⟩
  | cons x p ih =>
    intro k a b h
    cases h with
    | cons hax hp =>
      rcases hc : cb k with _ | e
      · rcases ih (k + 1) x b hp with ⟨h1, h2⟩ | ⟨q, c, y, e, hq, hcy, hpre, hn, he, hw⟩
        · refine .inl ⟨by simp [walk, hc, h1], ?_⟩
          intro i hi
          rcases i with _ | i
          · exact hc
          · have := h2 i (by simpa using hi)
            rw [show k + (i + 1) = k + 1 + i by omega]
            exact this
        · refine .inr ⟨x :: q, c, y, e, .cons hax hq, hcy, ?_, ?_, ?_, by simp [walk, hc, hw]⟩
          · simpa using hpre
          · intro i hi
            rcases i with _ | i
            · exact hc
            · have := hn i (by simpa using hi)
              rw [show k + (i + 1) = k + 1 + i by omega]
              exact this
          · rw [List.length_cons, show k + (q.length + 1) = k + 1 + q.length by omega]
            exact he
      · exact .inr ⟨[], a, x, e, .nil a, hax, by simp, by simp, by simpa using hc, by simp [walk, hc]⟩

end Verif.Mig
