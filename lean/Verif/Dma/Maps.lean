import Verif.Dma.Props3

/-! # Every mapping of client memory is owned by a region, and removed with it -/

namespace Verif.Dma
open Verif

/-- The region uses a mapping of `len` bytes at `base`. -/
def Geom.uses (base len : Nat) (g : Geom) : Bool := g.2.1.isSome && g.1.mapBase == base && g.1.mapLen == len

/-- Number of tracked regions that use the mapping of `len` bytes at `base`. -/
def users (c : Ctl) (base len : Nat) : Nat := c.regions.countP (fun r => Geom.uses base len r.geom)

theorem users_geoms (c : Ctl) (b l : Nat) : users c b l = c.geoms.countP (Geom.uses b l) := by
  simp [users, Ctl.geoms, List.countP_map, Function.comp_def]

theorem unmaps_dropEvs (u : Bool) (r : Region) (b l : Nat) :
    (dropEvs u r).count (.munmap b l) = [r].countP (fun r => Geom.uses b l r.geom) := by
  unfold dropEvs
  rw [List.count_append]
  have h1 : (if u = true then [Ev.unregister r.info] else []).count (.munmap b l) = 0 := by
    cases u <;> simp
  rw [h1]
  cases hfd : r.fd with
  | none => simp [Geom.uses, Region.geom, hfd]
  | some y => simp [Geom.uses, Region.geom, hfd, List.count_cons, List.countP_cons]

theorem maps_dropEvs (u : Bool) (r : Region) (b l : Nat) : (dropEvs u r).count (.mmap b l) = 0 := by
  unfold dropEvs
  rw [List.count_append]
  have h1 : (if u = true then [Ev.unregister r.info] else []).count (.mmap b l) = 0 := by
    cases u <;> simp
  rw [h1]
  cases hfd : r.fd <;> simp

theorem maps_step (cfg : Cfg) (c : Ctl) (op : Op) (b l : Nat) :
    users (step cfg c op).1 b l + (step cfg c op).2.2.count (.munmap b l) =
      users c b l + (step cfg c op).2.2.count (.mmap b l) := by
  have same : ∀ c' : Ctl, c'.geoms = c.geoms → users c' b l = users c b l := by
    intro c' h; rw [users_geoms, h, ← users_geoms]
  cases op with
  | map os q =>
    simp only [step]
    have h := handleMap_case os cfg.hasReg c q
    generalize handleMap os cfg.hasReg c q = o at h
    have hcl : ∀ (e : Ev), (∀ x, e ≠ .close x) → (closeEv q.fds.head?).count e = 0 := by
      intro e he
      cases q.fds.head? with
      | none => rfl
      | some y => simp [closeEv, (he y).symm]
    have hrg : ∀ (r : Region) (e : Ev), (∀ x, e ≠ .register x) →
        (if cfg.hasReg = true then [Ev.register r.info] else []).count e = 0 := by
      intro r e he
      cases cfg.hasReg with
      | false => rfl
      | true => simp [(he _).symm]
    cases h with
    | flags e _ _ => simp
    | fail e ev _ hadd hev =>
      have h0 : ∀ e : Ev, (∀ x, e ≠ .close x) → ev.count e = 0 := by
        intro e he
        rcases hev with rfl | ⟨y, _, rfl⟩
        · rfl
        · simp [(he y).symm]
      simp only [List.count_append]
      rw [h0 _ (by simp), h0 _ (by simp), hcl _ (by simp), hcl _ (by simp)]
    | again idx r _ hr h1 h2 h3 h4 h5 _ =>
      dsimp only
      rw [hrg _ _ (by simp), hrg _ _ (by simp)]
    | new r _ _ _ _ hn _ =>
      simp only [List.count_append]
      rw [hrg _ _ (by simp), hrg _ _ (by simp)]
      have hu : users { c with regions := c.regions ++ [r] } b l =
          users c b l + [r].countP (fun r => Geom.uses b l r.geom) := by
        simp only [users, List.countP_append]
      rw [hu]
      cases hfd : q.fds.head? with
      | none =>
        have : r.fd = none := by rw [hn.hfd, hfd]
        simp [Geom.uses, Region.geom, this]
      | some y =>
        have : r.fd = some y := by rw [hn.hfd, hfd]
        simp [Geom.uses, Region.geom, this, List.count_cons, List.countP_cons]
  | unmap m a s k =>
    simp only [step]
    have h := handleUnmap_case m cfg.hasUnreg c a s k
    generalize handleUnmap m cfg.hasUnreg c a s k = o at h
    cases h with
    | removed c1 l1 l2 r bm hk hg hm hs hd e1 e2 e3 e4 e5 =>
      dsimp only
      rw [maps_dropEvs, unmaps_dropEvs, ← same c1 hg]
      simp only [users, e1, List.countP_append, List.countP_cons, List.countP_nil]
      omega
    | cleared _ =>
      have h1 : ∀ rs : List Region, (rs.flatMap (dropEvs cfg.hasUnreg)).count (.munmap b l) =
          rs.countP (fun r => Geom.uses b l r.geom) := by
        intro rs
        induction rs with
        | nil => rfl
        | cons r rs ih =>
          rw [List.flatMap_cons, List.count_append, ih, unmaps_dropEvs]
          simp only [List.countP_cons, List.countP_nil]
          omega
      have h2 : ∀ rs : List Region, (rs.flatMap (dropEvs cfg.hasUnreg)).count (.mmap b l) = 0 := by
        intro rs
        induction rs with
        | nil => rfl
        | cons r rs ih => rw [List.flatMap_cons, List.count_append, ih, maps_dropEvs]
      dsimp only
      rw [h1, h2]
      simp [users]
    | enoent c1 _ hg hm hs _ _ => dsimp only; rw [same c1 hg]; simp
    | nomem => simp
    | dirtyFail c1 _ _ _ _ _ _ _ hg hm hs _ => dsimp only; rw [same c1 hg]; simp
    | assert c1 f _ hg hm hs _ => dsimp only; rw [same c1 hg]; simp
  | logStart ca p =>
    obtain ⟨h1, _, _⟩ := loggingStart_geom ca c p
    simp only [step]
    rw [same _ (by simp only [Ctl.geoms, h1])]; simp
  | logStop =>
    obtain ⟨h1, _, _⟩ := loggingStop_geom c
    simp only [step]
    rw [same _ (by simp only [Ctl.geoms, h1])]; simp
  | query hint a len p s buf =>
    obtain ⟨h1, _, _, _⟩ := dirtyPageGet_geom c hint a len p s buf
    simp only [step]
    rw [same _ (by simp only [Ctl.geoms, h1])]; simp
  | mark sgl =>
    simp only [step]
    cases h : sglMark c sgl with
    | ok c' =>
      obtain ⟨h1, _, _, _⟩ := sglMark_geom h
      dsimp only
      rw [same _ (by simp only [Ctl.geoms, h1])]; simp
    | err e => simp
    | fault f => simp

/-- Over any history, the mappings made are the ones removed and the ones in use. -/
theorem maps_run (cfg : Cfg) (ops : List Op) (c : Ctl) (b l : Nat) :
    users (run cfg c ops).1 b l + (run cfg c ops).2.count (.munmap b l) =
      users c b l + (run cfg c ops).2.count (.mmap b l) := by
  induction ops generalizing c with
  | nil => simp [run]
  | cons op ops ih =>
    have h1 := maps_step cfg c op b l
    have h2 := ih (step cfg c op).1
    have e : run cfg c (op :: ops) =
      ((run cfg (step cfg c op).1 ops).1, (step cfg c op).2.2 ++ (run cfg (step cfg c op).1 ops).2) := rfl
    rw [e]
    dsimp only
    rw [List.count_append, List.count_append]
    omega

end Verif.Dma
