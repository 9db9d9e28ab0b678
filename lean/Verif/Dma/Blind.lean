import Verif.Dma.Sys
import Mathlib.Tactic.SplitIfs
import Mathlib.Tactic.ByContra

/-!
# What a bitmap query makes of the buffer it is given

The three ways of filling the client's bitmap, run on two buffers of the same length: the control flow and the region's
bitmap are the same, and with equal page sizes the result is the same too. -/

namespace Verif.Dma
open Verif

/-- Two outcomes that differ at most in the value of a success. -/
def Alike {α : Type} (R : α → α → Prop) : Res α → Res α → Prop
  | .ok a, .ok b => R a b
  | .err e, .err e' => e = e'
  | .fault f, .fault f' => f = f'
  | _, _ => False

theorem Alike.cases {α : Type} {R : α → α → Prop} {x y : Res α} (h : Alike R x y) :
    (∃ a b, x = .ok a ∧ y = .ok b ∧ R a b) ∨ (∃ e, x = .err e ∧ y = .err e) ∨ (∃ f, x = .fault f ∧ y = .fault f) := by
  cases x <;> cases y
  case ok.ok a b => exact .inl ⟨a, b, rfl, rfl, h⟩
  case err.err => cases h; exact .inr (.inl ⟨_, rfl, rfl⟩)
  case fault.fault => cases h; exact .inr (.inr ⟨_, rfl, rfl⟩)
  all_goals exact h.elim

theorem orBit_alike {o o' : List Byte} (h : o.length = o'.length) (i : Nat) (b : Byte) :
    Alike (fun a b => a.length = b.length) (orBit o i b) (orBit o' i b) := by
  unfold orBit
  by_cases hi : i / 8 < o.length
  · rw [List.getElem?_eq_getElem hi, List.getElem?_eq_getElem (h ▸ hi)]
    simpa [Alike] using h
  · rw [List.getElem?_eq_none (by omega), List.getElem?_eq_none (by omega)]
    rfl

/-- Equal except for the bytes of the client's bitmap. -/
def Same1 {α : Type} (a b : α × List Byte) : Prop := a.1 = b.1 ∧ a.2.length = b.2.length

theorem extendBits_alike (e : Nat) (bit : Byte) : ∀ (fuel cb : Nat) (o o' : List Byte), o.length = o'.length →
    Alike Same1 (extendBits e bit fuel cb o) (extendBits e bit fuel cb o') := by
  intro fuel
  induction fuel with
  | zero =>
    intro cb o o' h
    unfold extendBits
    by_cases hc : cb < e
    · rw [if_pos hc, if_pos hc]; rfl
    · rw [if_neg hc, if_neg hc]; exact ⟨rfl, h⟩
  | succ n ih =>
    intro cb o o' h
    unfold extendBits
    by_cases hc : cb < e
    · rw [if_pos hc, if_pos hc]
      rcases (orBit_alike h cb bit).cases with ⟨a, b, h1, h2, hab⟩ | ⟨e, h1, h2⟩ | ⟨f, h1, h2⟩
      · rw [h1, h2]; exact ih _ a b hab
      · rw [h1, h2]; rfl
      · rw [h1, h2]; rfl
    · rw [if_neg hc, if_neg hc]; exact ⟨rfl, h⟩

theorem extendByte_alike (factor : Nat) (v : Byte) : ∀ (n j cb : Nat) (o o' : List Byte), o.length = o'.length →
    Alike Same1 (extendByte factor v n j cb o) (extendByte factor v n j cb o') := by
  intro n
  induction n with
  | zero => intro j cb o o' h; exact ⟨rfl, h⟩
  | succ n ih =>
    intro j cb o o' h
    unfold extendByte
    rcases (extendBits_alike (cb + factor) (serverBit v j) (factor + 1) cb o o' h).cases with
      ⟨⟨a, x⟩, ⟨b, y⟩, h1, h2, h3, h4⟩ | ⟨e, h1, h2⟩ | ⟨f, h1, h2⟩
    · rw [h1, h2]; cases h3; exact ih _ _ _ _ h4
    · rw [h1, h2]; rfl
    · rw [h1, h2]; rfl

theorem extendLoop_alike (factor size : Nat) : ∀ (n i cb : Nat) (srv o o' : List Byte), o.length = o'.length →
    Alike Same1 (extendLoop factor size n i cb srv o) (extendLoop factor size n i cb srv o') := by
  intro n
  induction n with
  | zero => intro i cb srv o o' h; exact ⟨rfl, h⟩
  | succ n ih =>
    intro i cb srv o o' h
    unfold extendLoop
    by_cases hc : cb / 8 ≥ size
    · rw [if_pos hc, if_pos hc]; exact ⟨rfl, h⟩
    rw [if_neg hc, if_neg hc]
    cases srv[i]? with
    | none => rfl
    | some b =>
      dsimp only
      rcases (extendByte_alike factor (exchange b).1 8 0 cb o o' h).cases with
        ⟨⟨a, x⟩, ⟨b', y⟩, h1, h2, h3, h4⟩ | ⟨e, h1, h2⟩ | ⟨f, h1, h2⟩
      · rw [h1, h2]; cases h3; exact ih _ _ _ _ _ h4
      · rw [h1, h2]; rfl
      · rw [h1, h2]; rfl

/-- Equal except for the bytes of the client's bitmap. -/
def Same2 (a b : Nat × List Byte × Bool) : Prop := a.1 = b.1 ∧ a.2.1.length = b.2.1.length ∧ a.2.2 = b.2.2

theorem combineByte_alike (factor size i : Nat) (v : Byte) : ∀ (n j cb : Nat) (o o' : List Byte),
    o.length = o'.length → Alike Same2 (combineByte factor size i v n j cb o) (combineByte factor size i v n j cb o') := by
  intro n
  induction n with
  | zero => intro j cb o o' h; exact ⟨rfl, h, rfl⟩
  | succ n ih =>
    intro j cb o o' h
    unfold combineByte
    rcases (orBit_alike h cb (serverBit v j)).cases with ⟨a, b, k1, k2, hab⟩ | ⟨e, h1, h2⟩ | ⟨f, h1, h2⟩
    case inr.inl => rw [h1, h2]; rfl
    case inr.inr => rw [h1, h2]; rfl
    rw [k1, k2]
    dsimp only
    by_cases h1 : (i * 8 + j) % factor = factor - 1
    · rw [if_pos h1, if_pos h1]
      by_cases h2 : (cb + 1) % 256 / 8 ≥ size
      · rw [if_pos h2, if_pos h2]; exact ⟨rfl, hab, rfl⟩
      · rw [if_neg h2, if_neg h2]; exact ih _ _ _ _ hab
    · rw [if_neg h1, if_neg h1]; exact ih _ _ _ _ hab

theorem combineLoop_alike (factor size : Nat) : ∀ (n i cb : Nat) (srv o o' : List Byte), o.length = o'.length →
    Alike Same1 (combineLoop factor size n i cb srv o) (combineLoop factor size n i cb srv o') := by
  intro n
  induction n with
  | zero => intro i cb srv o o' h; exact ⟨rfl, h⟩
  | succ n ih =>
    intro i cb srv o o' h
    unfold combineLoop
    by_cases hc : cb / 8 ≥ size
    · rw [if_pos hc, if_pos hc]; exact ⟨rfl, h⟩
    rw [if_neg hc, if_neg hc]
    cases srv[i]? with
    | none => rfl
    | some b =>
      have := combineByte_alike factor size i (exchange b).1 8 0 cb o o' h
      dsimp only
      revert this
      generalize combineByte factor size i (exchange b).1 8 0 cb o = x
      generalize combineByte factor size i (exchange b).1 8 0 cb o' = y
      intro hxy
      rcases x with ⟨a, x, f⟩ | e | e <;> rcases y with ⟨a', x', f'⟩ | e' | e'
      case ok.ok =>
        obtain ⟨h1, h2, h3⟩ := hxy
        dsimp only at h1 h2 h3
        subst h1 h3
        cases f with
        | true => exact ⟨rfl, h2⟩
        | false => exact ih _ _ _ _ _ h2
      all_goals first | exact hxy.elim | exact hxy

theorem getSame_alike : ∀ (n i : Nat) (srv o o' : List Byte), o.length = o'.length →
    Alike Same1 (getSame n i srv o) (getSame n i srv o') := by
  intro n
  induction n with
  | zero => intro i srv o o' h; exact ⟨rfl, h⟩
  | succ n ih =>
    intro i srv o o' h
    unfold getSame
    cases srv[i]? with
    | none => rfl
    | some b =>
      by_cases hi : i < o.length
      · rw [List.getElem?_eq_getElem hi, List.getElem?_eq_getElem (h ▸ hi)]
        exact ih _ _ _ _ (by simpa using h)
      · rw [List.getElem?_eq_none (by omega), List.getElem?_eq_none (by omega)]
        rfl

/-- With equal page sizes every byte in the range is overwritten. -/
theorem getSame_blind : ∀ (n i : Nat) (srv o o' : List Byte), o.length = o'.length →
    (∀ j, j < i ∨ i + n ≤ j → o[j]? = o'[j]?) → getSame n i srv o = getSame n i srv o' := by
  intro n
  induction n with
  | zero =>
    intro i srv o o' _ h
    have : o = o' := List.ext_getElem? (fun j => h j (by omega))
    rw [this]
  | succ n ih =>
    intro i srv o o' hl h
    unfold getSame
    cases srv[i]? with
    | none => rfl
    | some b =>
      by_cases hi : i < o.length
      · rw [List.getElem?_eq_getElem hi, List.getElem?_eq_getElem (hl ▸ hi)]
        refine ih _ _ _ _ (by simpa using hl) (fun j hj => ?_)
        rw [List.getElem?_set, List.getElem?_set, hl]
        by_cases hji : i = j
        · rw [if_pos hji, if_pos hji]
        · rw [if_neg hji, if_neg hji]
          exact h j (by omega)
      · rw [List.getElem?_eq_none (by omega), List.getElem?_eq_none (by omega)]

theorem getBits_alike (sp cp ss cs : Nat) (srv o o' : List Byte) (h : o.length = o'.length) :
    Alike Same1 (getBits sp cp ss cs srv o) (getBits sp cp ss cs srv o') := by
  unfold getBits
  by_cases h1 : cp = sp
  · rw [if_pos h1, if_pos h1]; exact getSame_alike _ _ _ _ _ h
  rw [if_neg h1, if_neg h1]
  by_cases h2 : cp < sp
  · rw [if_pos h2, if_pos h2]; exact extendLoop_alike _ _ _ _ _ _ _ _ h
  · rw [if_neg h2, if_neg h2]; exact combineLoop_alike _ _ _ _ _ _ _ _ h

/-! ## A range that is not empty -/

/-- The translation so far: entries were stored for the first pieces, and either something is left or a piece was found. -/
def Filled (s : SplitSt) : Prop := s.sgl.length = min s.cnt 1 ∧ (s.cnt = 0 → 0 < s.len)

theorem splitInner_filled (w : Bool) (idx : Nat) (r : Region) : ∀ (fuel : Nat) (s : SplitSt), Filled s →
    (∀ s', splitInner 1 w idx r fuel s = .cont s' → Filled s') ∧
    (∀ s', splitInner 1 w idx r fuel s = .out s' → Filled s') := by
  intro fuel
  induction fuel with
  | zero => intro s _; constructor <;> (intro s' h; cases h)
  | succ n ih =>
    intro s hs
    unfold splitInner
    by_cases hc : s.addr ≥ r.info.base ∧ s.addr < r.end64
    case neg =>
      rw [if_neg hc]
      exact ⟨fun s' h => by cases h; exact hs, fun s' h => by cases h⟩
    rw [if_pos hc]
    dsimp only
    obtain ⟨h1, h2⟩ := hs
    have step : ∀ sgl : List Sg, sgl.length = min (s.cnt + 1) 1 →
        Filled { addr := add64 s.addr (min (r.end64 - s.addr) s.len), len := s.len - min (r.end64 - s.addr) s.len,
                 cnt := s.cnt + 1, sgl, found := true } := fun sgl h => ⟨h, fun h => by simp at h⟩
    have fin : ∀ sgl : List Sg, sgl.length = min (s.cnt + 1) 1 → ∀ t : SplitStep,
        t = (if s.len - min (r.end64 - s.addr) s.len = 0 then .out
          { addr := add64 s.addr (min (r.end64 - s.addr) s.len), len := s.len - min (r.end64 - s.addr) s.len,
            cnt := s.cnt + 1, sgl, found := true }
          else splitInner 1 w idx r n
          { addr := add64 s.addr (min (r.end64 - s.addr) s.len), len := s.len - min (r.end64 - s.addr) s.len,
            cnt := s.cnt + 1, sgl, found := true }) → (∀ s', t = .cont s' → Filled s') ∧ (∀ s', t = .out s' → Filled s') := by
      intro sgl hl t ht
      by_cases hz : s.len - min (r.end64 - s.addr) s.len = 0
      · rw [if_pos hz] at ht
        subst ht
        exact ⟨(fun s' h => by cases h), (fun s' h => by cases h; exact step sgl hl)⟩
      · rw [if_neg hz] at ht
        subst ht
        exact ih _ (step sgl hl)
    by_cases hcnt : s.cnt < 1
    · rw [if_pos hcnt]
      cases initSg r idx s.addr (min (r.end64 - s.addr) s.len) w with
      | none => exact ⟨(fun s' h => by cases h), (fun s' h => by cases h)⟩
      | some sg => exact fin (s.sgl ++ [sg]) (by simp [h1]; omega) _ rfl
    · rw [if_neg hcnt]
      exact fin s.sgl (by omega) _ rfl

theorem splitFor_filled (w : Bool) : ∀ (rs : List Region) (idx : Nat) (s : SplitSt), Filled s →
    (∀ s', splitFor 1 w idx rs s = .cont s' → Filled s') ∧ (∀ s', splitFor 1 w idx rs s = .out s' → Filled s') := by
  intro rs
  induction rs with
  | nil => intro idx s hs; exact ⟨(fun s' h => by cases h; exact hs), (fun s' h => by cases h)⟩
  | cons r rs ih =>
    intro idx s hs
    unfold splitFor
    have hi := splitInner_filled w idx r (s.len + 1) s hs
    revert hi
    generalize splitInner 1 w idx r (s.len + 1) s = t
    intro hi
    cases t with
    | cont s1 => exact ih _ _ (hi.1 s1 rfl)
    | out s1 => exact hi
    | err e => exact ⟨(fun s' h => by cases h), (fun s' h => by cases h)⟩
    | diverge => exact ⟨(fun s' h => by cases h), (fun s' h => by cases h)⟩

theorem splitEnd_filled (s : SplitSt) (hs : Filled s) (hz : s.found = true → s.len = 0 ∨ 0 < s.cnt) (l : List Sg)
    (h : splitEnd 1 s = .ok l) : l.length = 1 := by
  unfold splitEnd at h
  by_cases h1 : s.found = false
  · rw [if_pos h1] at h; cases h
  rw [if_neg h1] at h
  by_cases h2 : s.cnt > 1
  · rw [if_pos h2] at h; cases h
  rw [if_neg h2] at h
  cases h
  obtain ⟨a, b⟩ := hs
  have := hz (by simpa using h1)
  omega

/-- A piece that ends the search was counted. -/
theorem splitInner_out (w : Bool) (idx : Nat) (r : Region) : ∀ (fuel : Nat) (s s' : SplitSt),
    splitInner 1 w idx r fuel s = .out s' → 0 < s'.cnt := by
  intro fuel
  induction fuel with
  | zero => intro s s' h; cases h
  | succ n ih =>
    intro s s' h
    unfold splitInner at h
    by_cases hc : s.addr ≥ r.info.base ∧ s.addr < r.end64
    case neg => rw [if_neg hc] at h; cases h
    rw [if_pos hc] at h
    dsimp only at h
    split at h
    · cases h
    · by_cases hz : s.len - min (r.end64 - s.addr) s.len = 0
      · rw [if_pos hz] at h; cases h; exact Nat.succ_pos _
      · rw [if_neg hz] at h; exact ih _ _ h

theorem splitFor_out (w : Bool) : ∀ (rs : List Region) (idx : Nat) (s s' : SplitSt),
    splitFor 1 w idx rs s = .out s' → 0 < s'.cnt := by
  intro rs
  induction rs with
  | nil => intro idx s s' h; cases h
  | cons r rs ih =>
    intro idx s s' h
    unfold splitFor at h
    cases hi : splitInner 1 w idx r (s.len + 1) s with
    | cont s1 => rw [hi] at h; exact ih _ _ _ h
    | out s1 => rw [hi] at h; cases h; exact splitInner_out w idx r _ _ _ hi
    | err e => rw [hi] at h; cases h
    | diverge => rw [hi] at h; cases h

theorem splitOuter_filled (w : Bool) (rs : List Region) : ∀ (fuel : Nat) (s : SplitSt), Filled s → ∀ l,
    splitOuter 1 w rs fuel s = .ok l → l.length = 1 := by
  intro fuel
  induction fuel with
  | zero => intro s _ l h; cases h
  | succ n ih =>
    intro s hs l h
    unfold splitOuter at h
    by_cases hc : s.found = true ∧ s.len > 0
    · rw [if_pos hc] at h
      have hf := splitFor_filled w rs 0 { s with found := false } hs
      cases hi : splitFor 1 w 0 rs { s with found := false } with
      | cont s1 => rw [hi] at h; exact ih s1 (hf.1 s1 hi) l h
      | out s1 => rw [hi] at h; exact splitEnd_filled s1 (hf.2 s1 hi) (fun _ => .inr (splitFor_out w _ _ _ _ hi)) l h
      | err e => rw [hi] at h; cases h
      | diverge => rw [hi] at h; cases h
    · rw [if_neg hc] at h
      exact splitEnd_filled s hs (fun hf => .inl (by by_contra hz; exact hc ⟨hf, by omega⟩)) l h

/-- The translation of a range that is not empty into at most one entry never returns 0 entries. -/
theorem addrToSgl_one (c : Ctl) (hint addr len : Nat) (w : Bool) (hl : 0 < len) (l : List Sg)
    (h : (addrToSgl c hint addr len 1 w).1 = .ok l) : l.length = 1 := by
  have slow : (slowPath c hint addr len 1 w).1 = .ok l → l.length = 1 := by
    unfold slowPath
    intro h
    have key : ∀ x, addrSgSplit c addr len 1 w = .ok x → x.length = 1 :=
      fun x hx => splitOuter_filled w c.regions _ _ ⟨rfl, fun _ => hl⟩ x hx
    cases hx : addrSgSplit c addr len 1 w with
    | ok x =>
      rw [hx] at h
      cases x with
      | nil => exact absurd (key [] hx) (by simp)
      | cons a x => cases h; exact key _ hx
    | more n => rw [hx] at h; cases h
    | err e => rw [hx] at h; cases h
    | fault f => rw [hx] at h; cases h
  unfold addrToSgl at h
  cases hr : c.regions[hint]? with
  | none =>
    rw [hr] at h
    dsimp only at h
    by_cases hm : hint < c.maxRegions
    · rw [if_pos hm] at h; exact slow h
    · rw [if_neg hm] at h; cases h
  | some r =>
    rw [hr] at h
    dsimp only at h
    by_cases hc : (1 : Nat) > 0 ∧ len > 0 ∧ addr ≥ r.info.base ∧ add64 addr len ≤ r.end64
    · rw [if_pos hc] at h
      cases hi : initSg r hint addr len w with
      | none => rw [hi] at h; cases h
      | some sg => rw [hi] at h; cases h; rfl
    · rw [if_neg hc] at h; exact slow h

/-- The translation of an empty range returns 0 entries. -/
theorem addrToSgl_none (c : Ctl) (hint addr : Nat) (w : Bool) (hh : hint < c.maxRegions) :
    (addrToSgl c hint addr 0 1 w).1 = .ok [] := by
  have slow : (slowPath c hint addr 0 1 w).1 = .ok [] := by
    unfold slowPath addrSgSplit splitOuter splitEnd
    simp
  unfold addrToSgl
  cases hr : c.regions[hint]? with
  | none => dsimp only; rw [if_pos hh]; exact slow
  | some r =>
    dsimp only
    rw [if_neg (by omega)]; exact slow

/-! ## The query -/

/-- Outcomes of a query that differ at most in the bytes of the bitmap. -/
def GetOut.Alike : GetOut → GetOut → Prop
  | .done a, .done b => a.length = b.length
  | x, y => x = y

theorem GetOut.Alike.refl (x : GetOut) : x.Alike x := by cases x <;> rfl

/-- The value of the buffer decides neither the region's bitmap nor the outcome. -/
theorem dirtyPageGet_alike (c : Ctl) (hint addr len pg size : Nat) (o o' : List Byte) (h : o.length = o'.length) :
    (dirtyPageGet c hint addr len pg size o).1 = (dirtyPageGet c hint addr len pg size o').1 ∧
      (dirtyPageGet c hint addr len pg size o).2.Alike (dirtyPageGet c hint addr len pg size o').2 := by
  unfold dirtyPageGet
  split
  case h_4 sg hsg =>
    by_cases h1 : sg.dmaAddr ≠ addr ∨ sg.length ≠ len
    · rw [if_pos h1, if_pos h1]; exact ⟨rfl, .refl _⟩
    rw [if_neg h1, if_neg h1]
    by_cases h2 : c.dirtyPgsize = 0
    · rw [if_pos h2, if_pos h2]; exact ⟨rfl, .refl _⟩
    rw [if_neg h2, if_neg h2]
    by_cases h3 : badClientPg pg = true
    · rw [if_pos h3, if_pos h3]; exact ⟨rfl, .refl _⟩
    rw [if_neg h3, if_neg h3]
    cases getBitmapSize len c.dirtyPgsize with
    | err e => exact ⟨rfl, .refl _⟩
    | fault f => exact ⟨rfl, .refl _⟩
    | ok ss =>
    dsimp only
    cases getBitmapSize len pg with
    | err e => exact ⟨rfl, .refl _⟩
    | fault f => exact ⟨rfl, .refl _⟩
    | ok cs =>
    dsimp only
    by_cases h4 : size ≠ cs
    · rw [if_pos h4, if_pos h4]; exact ⟨rfl, .refl _⟩
    rw [if_neg h4, if_neg h4]
    cases c.regions[sg.region]? with
    | none => exact ⟨rfl, .refl _⟩
    | some r =>
    obtain ⟨info, fd, off, dirty⟩ := r
    cases fd with
    | none => exact ⟨rfl, .refl _⟩
    | some fd =>
    cases dirty with
    | none => exact ⟨rfl, .refl _⟩
    | some srv =>
    dsimp only
    have := getBits_alike c.dirtyPgsize pg ss cs srv o o' h
    revert this
    generalize getBits c.dirtyPgsize pg ss cs srv o = x
    generalize getBits c.dirtyPgsize pg ss cs srv o' = y
    intro hxy
    rcases x with ⟨a, x⟩ | e | e <;> rcases y with ⟨a', x'⟩ | e' | e'
    case ok.ok =>
      obtain ⟨k1, k2⟩ := hxy
      dsimp only at k1 k2
      subst k1
      exact ⟨rfl, k2⟩
    all_goals first | exact hxy.elim | (cases hxy; exact ⟨rfl, .refl _⟩)
  all_goals exact ⟨rfl, .refl _⟩

/-- With the page size of the log, and a buffer of the size announced, the outcome does not depend on its content. -/
theorem dirtyPageGet_blind (c : Ctl) (hint addr len pg size : Nat) (o o' : List Byte) (ho : o.length = size)
    (ho' : o'.length = size) (hpg : c.dirtyPgsize ≠ 0 → pg = c.dirtyPgsize) :
    dirtyPageGet c hint addr len pg size o = dirtyPageGet c hint addr len pg size o' := by
  unfold dirtyPageGet
  split
  case h_4 sg hsg =>
    by_cases h1 : sg.dmaAddr ≠ addr ∨ sg.length ≠ len
    · rw [if_pos h1, if_pos h1]
    rw [if_neg h1, if_neg h1]
    by_cases h2 : c.dirtyPgsize = 0
    · rw [if_pos h2, if_pos h2]
    rw [if_neg h2, if_neg h2]
    have hp := hpg h2
    by_cases h3 : badClientPg pg = true
    · rw [if_pos h3, if_pos h3]
    rw [if_neg h3, if_neg h3]
    cases getBitmapSize len c.dirtyPgsize with
    | err e => rfl
    | fault f => rfl
    | ok ss =>
    dsimp only
    cases getBitmapSize len pg with
    | err e => rfl
    | fault f => rfl
    | ok cs =>
    dsimp only
    by_cases h4 : size ≠ cs
    · rw [if_pos h4, if_pos h4]
    rw [if_neg h4, if_neg h4]
    have hcs : size = cs := by omega
    have hb : ∀ srv, getBits c.dirtyPgsize pg ss cs srv o = getBits c.dirtyPgsize pg ss cs srv o' := by
      intro srv
      unfold getBits
      rw [if_pos hp, if_pos hp]
      exact getSame_blind cs 0 srv o o' (by omega) (fun j hj => by
        rw [List.getElem?_eq_none (by omega), List.getElem?_eq_none (by omega)])
    simp only [hb]
  all_goals rfl

/-- An outcome other than "nothing was written" for a range that is not empty. -/
theorem dirtyPageGet_writes (c : Ctl) (hint addr len pg size : Nat) (o : List Byte) (hl : 0 < len) :
    (dirtyPageGet c hint addr len pg size o).2 ≠ .ret0 := by
  have key := addrToSgl_one c hint addr len false hl
  unfold dirtyPageGet
  split
  case h_5 x hx hy =>
    have := key x hy
    match x, this with
    | [a], _ => exact absurd rfl (hx a)
  case h_4 sg hsg =>
    split_ifs <;> try simp
    repeat (split <;> try simp)
  all_goals simp

/-! ## Unmapping with a bitmap -/

/-- Outcomes of an unmap that differ at most in the bytes of the bitmap. -/
def UnmapOut.Alike : UnmapOut → UnmapOut → Prop
  | .ok (some a), .ok (some b) => a.length = b.length
  | x, y => x = y

theorem UnmapOut.Alike.refl (x : UnmapOut) : x.Alike x := by
  rcases x with (_ | x) | _ | _ | _ <;> rfl

theorem unmapTail_alike (u : Bool) (c : Ctl) (addr size : Nat) (b b' : List Byte) (h : b.length = b'.length) :
    (unmapTail u c addr size (some b)).1 = (unmapTail u c addr size (some b')).1 ∧
      (unmapTail u c addr size (some b)).2.1.Alike (unmapTail u c addr size (some b')).2.1 ∧
      (unmapTail u c addr size (some b)).2.2 = (unmapTail u c addr size (some b')).2.2 := by
  unfold unmapTail
  cases removeRegion c u addr size with
  | ok x => exact ⟨rfl, h, rfl⟩
  | err e => exact ⟨rfl, .refl _, rfl⟩
  | fault f => exact ⟨rfl, .refl _, rfl⟩

theorem handleUnmap_alike (a u : Bool) (c : Ctl) (addr size pg bs hint : Nat) (b b' : List Byte)
    (h : b.length = b'.length) :
    (handleUnmap a u c addr size (.getDirty pg bs b hint)).1 = (handleUnmap a u c addr size (.getDirty pg bs b' hint)).1 ∧
      (handleUnmap a u c addr size (.getDirty pg bs b hint)).2.1.Alike
        (handleUnmap a u c addr size (.getDirty pg bs b' hint)).2.1 ∧
      (handleUnmap a u c addr size (.getDirty pg bs b hint)).2.2 =
        (handleUnmap a u c addr size (.getDirty pg bs b' hint)).2.2 := by
  unfold handleUnmap
  by_cases ha : a = false
  · rw [if_pos ha, if_pos ha]; exact ⟨rfl, .refl _, rfl⟩
  rw [if_neg ha, if_neg ha]
  have := dirtyPageGet_alike c hint addr size pg bs b b' h
  revert this
  dsimp only
  generalize dirtyPageGet c hint addr size pg bs b = x
  generalize dirtyPageGet c hint addr size pg bs b' = y
  rintro ⟨h1, h2⟩
  obtain ⟨x1, x2⟩ := x
  obtain ⟨y1, y2⟩ := y
  dsimp only at h1 h2
  subst h1
  cases x2 <;> cases y2
  case done.done => exact unmapTail_alike u x1 addr size _ _ h2
  case ret0.ret0 => exact unmapTail_alike u x1 addr size _ _ h
  all_goals first | (cases h2; exact ⟨rfl, .refl _, rfl⟩) | cases h2

theorem handleUnmap_blind (a u : Bool) (c : Ctl) (addr size pg bs hint : Nat) (b b' : List Byte)
    (hb : b.length = bs) (hb' : b'.length = bs) (hs : size ≠ 0) (hpg : c.dirtyPgsize ≠ 0 → pg = c.dirtyPgsize) :
    handleUnmap a u c addr size (.getDirty pg bs b hint) = handleUnmap a u c addr size (.getDirty pg bs b' hint) := by
  have h1 := dirtyPageGet_blind c hint addr size pg bs b b' hb hb' hpg
  have h2 := dirtyPageGet_writes c hint addr size pg bs b' (by omega)
  unfold handleUnmap
  dsimp only
  rw [h1]
  revert h2
  generalize dirtyPageGet c hint addr size pg bs b' = y
  intro h2
  obtain ⟨y1, y2⟩ := y
  cases y2 <;> first | rfl | exact absurd rfl h2

end Verif.Dma
