import Verif.Dma.Refine

/-! # Lemmas on address translation (for C04–C06) -/

namespace Verif.Dma
open Verif

/-- The test of the translation loop. -/
def Hit (r : Region) (a : Nat) : Prop := r.info.base ≤ a ∧ a < r.end64

def Region.Fits (r : Region) : Prop := r.info.base < U64 ∧ r.info.len < U64

theorem Hit.end64 {r : Region} {a : Nat} (h : Hit r a) (hf : r.Fits) :
    r.end64 = r.info.base + r.info.len ∧ r.info.base + r.info.len < U64 := by
  unfold Hit Region.end64 add64 at *
  obtain ⟨h1, h2⟩ := h
  obtain ⟨f1, f2⟩ := hf
  have hU : 0 < U64 := by decide
  by_cases hlt : r.info.base + r.info.len < U64
  · rw [Nat.mod_eq_of_lt hlt]; exact ⟨rfl, hlt⟩
  · exfalso
    have : (r.info.base + r.info.len) % U64 = r.info.base + r.info.len - U64 := by
      rw [Nat.mod_eq_sub_mod (by omega), Nat.mod_eq_of_lt (by omega)]
    omega

theorem Hit.covers {r : Region} {a : Nat} (h : Hit r a) (hf : r.Fits) : r.Covers a := by
  have := h.end64 hf
  unfold Hit at h
  unfold Region.Covers
  omega

theorem hit_iff {r : Region} {a : Nat} (hw : r.NoWrap) : Hit r a ↔ r.Covers a := by
  unfold Hit Region.Covers Region.end64 add64 Region.NoWrap at *
  rw [Nat.mod_eq_of_lt hw]

/-- One entry of the walk through the table. -/
structure Piece where
  idx : Nat
  reg : Region
  addr : Nat
  len : Nat

def Piece.sg (write : Bool) (p : Piece) : Sg :=
  { dmaAddr := p.reg.info.base, region := p.idx, offset := p.addr - p.reg.info.base, length := p.len,
    writeable := write }

/-- Entry may not be written although writing was asked for. -/
def Piece.Bad (write : Bool) (p : Piece) : Prop := write = true ∧ p.reg.info.prot.write = false

/-- `Walk rs a l ps a' l'`: starting at `a` with `l` bytes to go, the pieces `ps` lead to `a'`, `l'`. -/
inductive Walk (rs : List Region) : Nat → Nat → List Piece → Nat → Nat → Prop where
  | nil (a l) : Walk rs a l [] a l
  | cons (p : Piece) (l : Nat) (ps : List Piece) (a' l' : Nat) : rs[p.idx]? = some p.reg →
      Hit p.reg p.addr → 0 < l → p.len = min (p.reg.end64 - p.addr) l →
      Walk rs (p.addr + p.len) (l - p.len) ps a' l' → Walk rs p.addr l (p :: ps) a' l'

theorem Walk.append {rs a l ps a1 l1 qs a2 l2} (h : Walk rs a l ps a1 l1) (h2 : Walk rs a1 l1 qs a2 l2) :
    Walk rs a l (ps ++ qs) a2 l2 := by
  induction h with
  | nil => exact h2
  | cons p l ps a' l' h1 hh hl hn _ ih => exact .cons p l _ _ _ h1 hh hl hn (ih h2)

/-- A walk is finished when nothing is left or the next byte is in no region. -/
def Stuck (rs : List Region) (a l : Nat) : Prop := l = 0 ∨ ∀ r ∈ rs, ¬ Hit r a

open Classical in
theorem exists_walk (rs : List Region) (l : Nat) : ∀ a, ∃ ps a' l', Walk rs a l ps a' l' ∧ Stuck rs a' l' := by
  induction l using Nat.strongRecOn with
  | _ l ih =>
    intro a
    by_cases hs : Stuck rs a l
    · exact ⟨[], a, l, .nil a l, hs⟩
    · unfold Stuck at hs
      have hl : l ≠ 0 := fun h => hs (Or.inl h)
      have : ∃ r ∈ rs, Hit r a := by
        apply Classical.byContradiction
        intro hn
        exact hs (Or.inr (fun r hr hh => hn ⟨r, hr, hh⟩))
      obtain ⟨r, hr, hh⟩ := this
      obtain ⟨i, hi⟩ := List.getElem?_of_mem hr
      have hlen : 0 < min (r.end64 - a) l := by unfold Hit at hh; omega
      obtain ⟨ps, a', l', hw, hst⟩ := ih (l - min (r.end64 - a) l) (by omega) (a + min (r.end64 - a) l)
      exact ⟨⟨i, r, a, min (r.end64 - a) l⟩ :: ps, a', l', .cons ⟨i, r, a, _⟩ l ps a' l' hi hh (by omega) rfl hw, hst⟩

/-- At most one region is hit at each address. -/
def HitOnce (rs : List Region) : Prop :=
  ∀ (i j : Nat) (r s : Region) (a : Nat), rs[i]? = some r → rs[j]? = some s → Hit r a → Hit s a → i = j

theorem Walk.unique {rs a l ps a1 l1 qs a2 l2} (hu : HitOnce rs) (h : Walk rs a l ps a1 l1)
    (hs : Stuck rs a1 l1) (h2 : Walk rs a l qs a2 l2) (hs2 : Stuck rs a2 l2) :
    ps = qs ∧ a1 = a2 ∧ l1 = l2 := by
  induction h generalizing qs a2 l2 with
  | nil a l =>
    cases h2 with
    | nil => exact ⟨rfl, rfl, rfl⟩
    | cons p l ps a' l' h1 hh hl hn hw =>
      rcases hs with h0 | h0
      · omega
      · exact absurd hh (h0 _ (List.mem_of_getElem? h1))
  | cons p l ps a' l' h1 hh hl hn hw ih =>
    generalize hpa : p.addr = pa at h2
    cases h2 with
    | nil =>
      subst hpa
      rcases hs2 with h0 | h0
      · omega
      · exact absurd hh (h0 _ (List.mem_of_getElem? h1))
    | cons q l qs a' l' g1 gh gl gn gw =>
      have hidx : p.idx = q.idx := hu _ _ _ _ _ h1 g1 hh (hpa ▸ gh)
      obtain ⟨pi, pr, pa, pl⟩ := p
      obtain ⟨qi, qr, qa, ql⟩ := q
      simp only at *
      subst hpa hidx
      rw [h1] at g1; cases g1
      subst hn gn
      obtain ⟨e1, e2, e3⟩ := ih hs gw hs2
      exact ⟨by rw [e1], e2, e3⟩

/-- What the split loop has done so far. -/
structure SplitInv (rs : List Region) (max : Nat) (write : Bool) (A L : Nat) (ps : List Piece)
    (s : SplitSt) : Prop where
  walk : Walk rs A L ps s.addr s.len
  cnt : s.cnt = ps.length
  sgl : s.sgl = (ps.take max).map (Piece.sg write)
  good : ∀ p ∈ ps.take max, ¬ p.Bad write

theorem end64_lt (r : Region) : r.end64 < U64 := Nat.mod_lt _ (by decide)

theorem take_append_singleton {α} (l : List α) (x : α) (n : Nat) :
    (l ++ [x]).take n = if l.length < n then l.take n ++ [x] else l.take n := by
  rw [List.take_append]
  split
  · have : n - l.length ≠ 0 := by omega
    obtain ⟨m, hm⟩ : ∃ m, n - l.length = m + 1 := ⟨n - l.length - 1, by omega⟩
    rw [hm]; simp
  · have : n - l.length = 0 := by omega
    rw [this]; simp

/-- Outcome of the inner loop. -/
theorem splitInner_spec {rs max write A L ps s idx r} (hr : rs[idx]? = some r)
    (hi : SplitInv rs max write A L ps s) (hl : 0 < s.len) :
    match splitInner max write idx r (s.len + 1) s with
    | .cont s' => (s' = s ∧ ¬ Hit r s.addr) ∨
        (0 < s'.len ∧ s'.len < s.len ∧ s'.found = true ∧ ∃ ps', SplitInv rs max write A L ps' s')
    | .out s' => s'.len = 0 ∧ s'.found = true ∧ ∃ ps', SplitInv rs max write A L ps' s'
    | .err e => e = EACCES ∧ ∃ ps' a' l', Walk rs A L ps' a' l' ∧ ∃ p ∈ ps'.take max, p.Bad write
    | .diverge => False := by
  obtain ⟨n, hn⟩ : ∃ n, s.len = n + 1 := ⟨s.len - 1, by omega⟩
  rw [show splitInner max write idx r (s.len + 1) s = splitInner max write idx r (n + 1 + 1) s by rw [hn]]
  unfold splitInner
  by_cases hh : s.addr ≥ r.info.base ∧ s.addr < r.end64
  · have hit : Hit r s.addr := hh
    simp only [hh, and_self, if_true]
    let p : Piece := ⟨idx, r, s.addr, min (r.end64 - s.addr) s.len⟩
    have hwalk : Walk rs A L (ps ++ [p]) (s.addr + p.len) (s.len - p.len) :=
      hi.walk.append (.cons p s.len [] _ _ hr hit hl rfl (.nil _ _))
    have hadd : add64 s.addr p.len = s.addr + p.len := by
      unfold add64
      have := end64_lt r
      apply Nat.mod_eq_of_lt
      simp only [p]
      omega
    -- the entries after this step
    have key : ∀ sgl', (if s.cnt < max then (initSg r idx s.addr (min (r.end64 - s.addr) s.len) write).map
          (fun sg => s.sgl ++ [sg]) else some s.sgl) = some sgl' →
        SplitInv rs max write A L (ps ++ [p])
          { addr := add64 s.addr (min (r.end64 - s.addr) s.len), len := s.len - min (r.end64 - s.addr) s.len,
            cnt := s.cnt + 1, sgl := sgl', found := true } := by
      intro sgl' hs
      refine ⟨?_, ?_, ?_, ?_⟩
      · show Walk rs A L (ps ++ [p]) (add64 s.addr p.len) (s.len - p.len)
        rw [hadd]; exact hwalk
      · simp [hi.cnt]
      · show sgl' = _
        rw [take_append_singleton, ← hi.cnt]
        split at hs
        · rename_i hlt
          simp only [hlt, if_true, List.map_append, List.map_cons, List.map_nil, ← hi.sgl]
          unfold initSg at hs
          split at hs
          · cases hs
          · cases hs; rfl
        · rename_i hlt
          cases hs
          simp only [hlt, if_false, ← hi.sgl]
      · intro x hx
        rw [take_append_singleton, ← hi.cnt] at hx
        split at hx
        · rename_i hlt
          simp only [hlt, if_true] at hs
          rcases List.mem_append.mp hx with h | h
          · exact hi.good x h
          · simp only [List.mem_singleton] at h
            subst h
            unfold initSg at hs
            split at hs
            · cases hs
            · rename_i hb
              intro ⟨b1, b2⟩
              apply hb
              simp only [p] at b2
              simp [b1, b2]
        · exact hi.good x hx
    cases hsg : (if s.cnt < max then (initSg r idx s.addr (min (r.end64 - s.addr) s.len) write).map
          (fun sg => s.sgl ++ [sg]) else some s.sgl) with
    | none =>
      simp only
      refine ⟨trivial, ps ++ [p], _, _, hwalk, p, ?_, ?_⟩
      · rw [take_append_singleton, ← hi.cnt]
        split at hsg
        · rename_i hlt; simp [hlt]
        · cases hsg
      · split at hsg
        · unfold initSg at hsg
          split at hsg
          · rename_i hb
            simp only [Bool.and_eq_true, Bool.not_eq_true'] at hb
            exact hb
          · cases hsg
        · cases hsg
    | some sgl' =>
      simp only
      have hinv := key sgl' hsg
      by_cases h0 : s.len - min (r.end64 - s.addr) s.len = 0
      · simp only [h0, if_true]
        rw [h0] at hinv
        exact ⟨trivial, trivial, _, hinv⟩
      · simp only [h0, if_false]
        have haddr : add64 s.addr (min (r.end64 - s.addr) s.len) = r.end64 := by
          show add64 s.addr p.len = _
          rw [hadd]
          simp only [p]
          omega
        unfold splitInner
        have : ¬ (add64 s.addr (min (r.end64 - s.addr) s.len) ≥ r.info.base ∧
            add64 s.addr (min (r.end64 - s.addr) s.len) < r.end64) := by
          rw [haddr]; omega
        simp only [this, if_false]
        right
        refine ⟨by omega, by omega, trivial, _, hinv⟩
  · simp only [hh, if_false]
    left
    exact ⟨trivial, hh⟩

/-- Outcome of the `for` loop. -/
theorem splitFor_spec {rs max write A L} (l1 l2 : List Region) (hrs : rs = l1 ++ l2) :
    ∀ ps s, SplitInv rs max write A L ps s → 0 < s.len →
    match splitFor max write l1.length l2 s with
    | .cont s' => (s' = s ∧ ∀ r ∈ l2, ¬ Hit r s.addr) ∨
        (0 < s'.len ∧ s'.len < s.len ∧ s'.found = true ∧ ∃ ps', SplitInv rs max write A L ps' s')
    | .out s' => s'.len = 0 ∧ s'.found = true ∧ ∃ ps', SplitInv rs max write A L ps' s'
    | .err e => e = EACCES ∧ ∃ ps' a' l', Walk rs A L ps' a' l' ∧ ∃ p ∈ ps'.take max, p.Bad write
    | .diverge => False := by
  induction l2 generalizing l1 with
  | nil => intro ps s hi hl; simp [splitFor]
  | cons r l2 ih =>
    intro ps s hi hl
    have hr : rs[l1.length]? = some r := by rw [hrs]; simp
    have h1 := splitInner_spec hr hi hl
    simp only [splitFor]
    have ih' := ih (l1 ++ [r]) (by rw [hrs]; simp)
    rw [List.length_append, List.length_singleton] at ih'
    split at h1
    · rename_i s' hs'
      rw [hs']
      simp only
      rcases h1 with ⟨rfl, hn⟩ | ⟨g1, g2, g3, ps', g4⟩
      · have h2 := ih' ps s' hi hl
        split at h2
        · rename_i s2 hs2
          rcases h2 with ⟨rfl, hn2⟩ | h2
          · left
            refine ⟨rfl, ?_⟩
            intro x hx
            rcases List.mem_cons.mp hx with rfl | hx
            · exact hn
            · exact hn2 x hx
          · right; exact h2
        · rename_i s2 hs2; exact h2
        · rename_i e he; exact h2
        · exact h2.elim
      · have h2 := ih' ps' s' g4 g1
        split at h2
        · rename_i s2 hs2
          right
          rcases h2 with ⟨rfl, _⟩ | ⟨k1, k2, k3, k4⟩
          · exact ⟨g1, g2, g3, ps', g4⟩
          · exact ⟨k1, by omega, k3, k4⟩
        · rename_i s2 hs2; exact h2
        · rename_i e he; exact h2
        · exact h2.elim
    · rename_i s' hs'; rw [hs']; simpa using h1
    · rename_i e he; rw [he]; simpa using h1
    · exact h1.elim

/-- The answer that belongs to a finished walk. -/
def answer (max : Nat) (write : Bool) (ps : List Piece) (l' : Nat) : SglOut → Prop
  | .ok sgl => (∀ p ∈ ps.take max, ¬ p.Bad write) ∧ l' = 0 ∧ ps.length ≤ max ∧ sgl = ps.map (Piece.sg write)
  | .more x => (∀ p ∈ ps.take max, ¬ p.Bad write) ∧ l' = 0 ∧ max < ps.length ∧ x = ps.length
  | .err e => (e = EACCES ∧ ∃ p ∈ ps.take max, p.Bad write) ∨
      (e = ENOENT ∧ (∀ p ∈ ps.take max, ¬ p.Bad write) ∧ 0 < l')
  | .fault _ => False

theorem answer_det {max write ps l'} {o1 o2 : SglOut} (h1 : answer max write ps l' o1)
    (h2 : answer max write ps l' o2) : o1 = o2 := by
  have bad : ∀ {P : Prop}, (∀ p ∈ ps.take max, ¬ p.Bad write) → (∃ p ∈ ps.take max, p.Bad write) → P :=
    fun h ⟨p, hp, hb⟩ => absurd hb (h p hp)
  cases o1 <;> cases o2 <;> simp only [answer] at h1 h2
  · rw [h1.2.2.2, h2.2.2.2]
  · omega
  · rcases h2 with h2 | h2
    · exact bad h1.1 h2.2
    · omega
  · omega
  · rw [h1.2.2.2, h2.2.2.2]
  · rcases h2 with h2 | h2
    · exact bad h1.1 h2.2
    · omega
  · rcases h1 with h1 | h1
    · exact bad h2.1 h1.2
    · omega
  · rcases h1 with h1 | h1
    · exact bad h2.1 h1.2
    · omega
  · rcases h1 with h1 | h1 <;> rcases h2 with h2 | h2
    · rw [h1.1, h2.1]
    · exact bad h2.2.1 h1.2
    · exact bad h1.2.1 h2.2
    · rw [h1.1, h2.1]

theorem splitEnd_spec {rs max write A L ps s} (hi : SplitInv rs max write A L ps s)
    (h : (s.found = true ∧ s.len = 0) ∨ (s.found = false ∧ 0 < s.len)) :
    answer max write ps s.len (splitEnd max s) := by
  unfold splitEnd
  rcases h with ⟨hf, h0⟩ | ⟨hf, h0⟩
  · simp only [hf, Bool.true_eq_false, if_false]
    split
    · simp only [answer]; rw [← hi.cnt]; exact ⟨hi.good, h0, by omega, rfl⟩
    · have : ps.length ≤ max := by rw [← hi.cnt]; omega
      simp only [answer]
      refine ⟨hi.good, h0, this, ?_⟩
      rw [hi.sgl, List.take_of_length_le this]
  · simp only [hf, if_true, answer]
    right
    exact ⟨trivial, hi.good, h0⟩

theorem walk_extend {rs A L ps a l} (h : Walk rs A L ps a l) :
    ∃ qs a' l', Walk rs A L (ps ++ qs) a' l' ∧ Stuck rs a' l' := by
  obtain ⟨qs, a', l', hw, hs⟩ := exists_walk rs l a
  exact ⟨qs, a', l', h.append hw, hs⟩

theorem mem_take_append {α} {l l2 : List α} {x : α} {n : Nat} (h : x ∈ l.take n) : x ∈ (l ++ l2).take n := by
  rw [List.take_append]; exact List.mem_append_left _ h

theorem splitOuter_spec {rs max write A L} : ∀ (fuel : Nat) (s : SplitSt) (ps : List Piece),
    SplitInv rs max write A L ps s → s.found = true → s.len < fuel →
    ∃ ps' a' l', Walk rs A L ps' a' l' ∧ Stuck rs a' l' ∧ answer max write ps' l' (splitOuter max write rs fuel s) := by
  intro fuel
  induction fuel with
  | zero => intro s ps _ _ h; omega
  | succ fuel ih =>
    intro s ps hi hf hlt
    simp only [splitOuter, hf, true_and]
    split
    · rename_i hl
      have hi' : SplitInv rs max write A L ps { s with found := false } := ⟨hi.walk, hi.cnt, hi.sgl, hi.good⟩
      have h1 := splitFor_spec (rs := rs) [] rs rfl ps { s with found := false } hi' hl
      simp only [List.length_nil] at h1
      split at h1
      · rename_i s' hs'
        rw [hs']
        simp only
        rcases h1 with ⟨rfl, hn⟩ | ⟨g1, g2, g3, ps', g4⟩
        · refine ⟨ps, s.addr, s.len, hi.walk, Or.inr hn, ?_⟩
          cases fuel with
          | zero => omega
          | succ fuel =>
            simp only [splitOuter, Bool.false_eq_true, false_and, if_false]
            exact splitEnd_spec hi' (Or.inr ⟨rfl, hl⟩)
        · exact ih s' ps' g4 g3 (by omega)
      · rename_i s' hs'
        rw [hs']
        simp only
        obtain ⟨g1, g2, ps', g4⟩ := h1
        exact ⟨ps', _, _, g4.walk, Or.inl g1, splitEnd_spec g4 (Or.inl ⟨g2, g1⟩)⟩
      · rename_i e he
        rw [he]
        simp only
        obtain ⟨rfl, ps', a', l', hw, p, hp, hb⟩ := h1
        obtain ⟨qs, a2, l2, hw2, hs2⟩ := walk_extend hw
        refine ⟨ps' ++ qs, a2, l2, hw2, hs2, ?_⟩
        simp only [answer]
        left
        exact ⟨trivial, p, mem_take_append hp, hb⟩
      · exact h1.elim
    · rename_i hl
      exact ⟨ps, _, _, hi.walk, Or.inl (by omega), splitEnd_spec hi (Or.inl ⟨hf, by omega⟩)⟩

/-- The slow path: exactly the answer of a finished walk through the table. -/
theorem addrSgSplit_spec (c : Ctl) (addr len max : Nat) (write : Bool) :
    ∃ ps a' l', Walk c.regions addr len ps a' l' ∧ Stuck c.regions a' l' ∧
      answer max write ps l' (addrSgSplit c addr len max write) :=
  splitOuter_spec (len + 1) _ [] ⟨.nil _ _, rfl, by simp, by simp⟩ rfl (by simp)

/-- `split_fuel`: the loop never runs out of the rounds the model gives it. -/
theorem split_fuel (c : Ctl) (addr len max : Nat) (write : Bool) (f : Fault) :
    addrSgSplit c addr len max write ≠ .fault f := by
  intro h
  obtain ⟨ps, a', l', _, _, ha⟩ := addrSgSplit_spec c addr len max write
  rw [h] at ha
  exact ha

/-! ## The fast path -/

/-- For a range that does not wrap, the fast path gives the answer of a finished walk. -/
theorem fast_spec {c : Ctl} {hint : Nat} {r : Region} (hr : c.regions[hint]? = some r)
    {addr len max : Nat} {write : Bool} (hmax : 0 < max) (hlen : 0 < len) (hb : r.info.base ≤ addr)
    (he : add64 addr len ≤ r.end64) (hw : addr + len < U64) :
    Walk c.regions addr len [⟨hint, r, addr, len⟩] (addr + len) 0 ∧
    answer max write [⟨hint, r, addr, len⟩] 0
      (match initSg r hint addr len write with
       | none => .err EACCES
       | some sg => .ok [sg]) := by
  have hadd : add64 addr len = addr + len := Nat.mod_eq_of_lt hw
  rw [hadd] at he
  have hit : Hit r addr := ⟨hb, by omega⟩
  refine ⟨?_, ?_⟩
  · refine .cons ⟨hint, r, addr, len⟩ len [] _ _ hr hit hlen ?_ ?_
    · simp only; omega
    · simp only [Nat.sub_self]; exact .nil _ _
  · have htk : [(⟨hint, r, addr, len⟩ : Piece)].take max = [⟨hint, r, addr, len⟩] :=
      List.take_of_length_le (by simp; omega)
    unfold initSg
    by_cases hi : (write && !r.info.prot.write) = true
    · simp only [hi, if_true, answer, htk]
      left
      simp at hi
      exact ⟨trivial, _, List.mem_singleton.mpr rfl, hi⟩
    · simp only [hi, Bool.false_eq_true, if_false, answer, htk, List.mem_singleton, forall_eq,
        List.length_singleton, List.map_cons, List.map_nil]
      refine ⟨?_, trivial, hmax, rfl⟩
      intro ⟨h1, h2⟩
      apply hi
      simp only at h2
      simp [h1, h2]

/-- Both paths: the answer of a finished walk. -/
theorem addrToSgl_spec (c : Ctl) (hint addr len max : Nat) (write : Bool) (hh : hint < c.maxRegions)
    (hw : addr + len < U64) :
    ∃ ps a' l', Walk c.regions addr len ps a' l' ∧ Stuck c.regions a' l' ∧
      answer max write ps l' (addrToSgl c hint addr len max write).1 := by
  have slow : (slowPath c hint addr len max write).1 = addrSgSplit c addr len max write := by
    unfold slowPath
    split
    · rename_i h; exact h.symm
    · rfl
  unfold addrToSgl
  split
  · simp only [hh, if_true]
    rw [slow]
    exact addrSgSplit_spec c addr len max write
  · rename_i r hr
    split
    · rename_i hc
      have h := fast_spec hr (write := write) hc.1 hc.2.1 hc.2.2.1 hc.2.2.2 hw
      refine ⟨_, _, _, h.1, Or.inl rfl, ?_⟩
      have h2 := h.2
      split
      · rename_i hi; rw [hi] at h2; exact h2
      · rename_i sg hi; rw [hi] at h2; exact h2
    · rw [slow]
      exact addrSgSplit_spec c addr len max write

end Verif.Dma
