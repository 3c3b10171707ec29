import Verif.Lemmas.Marching

/-!
# ManifoldMesh: the boundary edges of a cell cancel against those of its neighbours

Points are named by half-voxel coordinates.
-/

namespace StlDice
namespace Manifold
open Spec
open Marching (corner cornerOff net shiftE net_append net_swap net_zero_of_perm perm_of_net
  shiftE_append shiftE_swap shiftE_shiftE telescope corner_shift)

/-- Boundary edges a cell contributes on its lower x face, by the 4 presence bits of the face. -/
def lowTableX : List (List (Key × Key)) := [
  [],
  [(⟨-1, 0, 0⟩, ⟨-1, 0, -1⟩), (⟨-1, 1, 0⟩, ⟨-1, 0, 0⟩)],
  [(⟨-1, 0, -1⟩, ⟨-1, 0, 0⟩), (⟨-1, 0, 0⟩, ⟨-1, -1, 0⟩)],
  [(⟨-1, 0, 0⟩, ⟨-1, -1, 0⟩), (⟨-1, 1, 0⟩, ⟨-1, 0, 0⟩)],
  [(⟨-1, 0, 0⟩, ⟨-1, 1, 0⟩), (⟨-1, 0, 1⟩, ⟨-1, 0, 0⟩)],
  [(⟨-1, 0, 0⟩, ⟨-1, 0, -1⟩), (⟨-1, 0, 1⟩, ⟨-1, 0, 0⟩)],
  [(⟨-1, 0, -1⟩, ⟨-1, 1, 0⟩), (⟨-1, 0, 1⟩, ⟨-1, -1, 0⟩)],
  [(⟨-1, 0, 0⟩, ⟨-1, -1, 0⟩), (⟨-1, 0, 1⟩, ⟨-1, 0, 0⟩)],
  [(⟨-1, -1, 0⟩, ⟨-1, 0, 0⟩), (⟨-1, 0, 0⟩, ⟨-1, 0, 1⟩)],
  [(⟨-1, -1, 0⟩, ⟨-1, 0, -1⟩), (⟨-1, 1, 0⟩, ⟨-1, 0, 1⟩)],
  [(⟨-1, 0, -1⟩, ⟨-1, 0, 0⟩), (⟨-1, 0, 0⟩, ⟨-1, 0, 1⟩)],
  [(⟨-1, 0, 0⟩, ⟨-1, 0, 1⟩), (⟨-1, 1, 0⟩, ⟨-1, 0, 0⟩)],
  [(⟨-1, -1, 0⟩, ⟨-1, 0, 0⟩), (⟨-1, 0, 0⟩, ⟨-1, 1, 0⟩)],
  [(⟨-1, -1, 0⟩, ⟨-1, 0, 0⟩), (⟨-1, 0, 0⟩, ⟨-1, 0, -1⟩)],
  [(⟨-1, 0, -1⟩, ⟨-1, 0, 0⟩), (⟨-1, 0, 0⟩, ⟨-1, 1, 0⟩)],
  []]

/-- Boundary edges a cell contributes on its lower y face, by the 4 presence bits of the face. -/
def lowTableY : List (List (Key × Key)) := [
  [],
  [(⟨-1, -1, 0⟩, ⟨0, -1, 0⟩), (⟨0, -1, 0⟩, ⟨0, -1, -1⟩)],
  [(⟨0, -1, -1⟩, ⟨0, -1, 0⟩), (⟨0, -1, 0⟩, ⟨1, -1, 0⟩)],
  [(⟨-1, -1, 0⟩, ⟨0, -1, 0⟩), (⟨0, -1, 0⟩, ⟨1, -1, 0⟩)],
  [(⟨0, -1, 0⟩, ⟨-1, -1, 0⟩), (⟨0, -1, 1⟩, ⟨0, -1, 0⟩)],
  [(⟨0, -1, 0⟩, ⟨0, -1, -1⟩), (⟨0, -1, 1⟩, ⟨0, -1, 0⟩)],
  [(⟨0, -1, -1⟩, ⟨-1, -1, 0⟩), (⟨0, -1, 1⟩, ⟨1, -1, 0⟩)],
  [(⟨0, -1, 0⟩, ⟨1, -1, 0⟩), (⟨0, -1, 1⟩, ⟨0, -1, 0⟩)],
  [(⟨0, -1, 0⟩, ⟨0, -1, 1⟩), (⟨1, -1, 0⟩, ⟨0, -1, 0⟩)],
  [(⟨-1, -1, 0⟩, ⟨0, -1, 1⟩), (⟨1, -1, 0⟩, ⟨0, -1, -1⟩)],
  [(⟨0, -1, -1⟩, ⟨0, -1, 0⟩), (⟨0, -1, 0⟩, ⟨0, -1, 1⟩)],
  [(⟨-1, -1, 0⟩, ⟨0, -1, 0⟩), (⟨0, -1, 0⟩, ⟨0, -1, 1⟩)],
  [(⟨0, -1, 0⟩, ⟨-1, -1, 0⟩), (⟨1, -1, 0⟩, ⟨0, -1, 0⟩)],
  [(⟨0, -1, 0⟩, ⟨0, -1, -1⟩), (⟨1, -1, 0⟩, ⟨0, -1, 0⟩)],
  [(⟨0, -1, -1⟩, ⟨0, -1, 0⟩), (⟨0, -1, 0⟩, ⟨-1, -1, 0⟩)],
  []]

/-- Boundary edges a cell contributes on its lower z face, by the 4 presence bits of the face. -/
def lowTableZ : List (List (Key × Key)) := [
  [],
  [(⟨-1, 0, -1⟩, ⟨0, 0, -1⟩), (⟨0, 0, -1⟩, ⟨0, 1, -1⟩)],
  [(⟨0, 0, -1⟩, ⟨1, 0, -1⟩), (⟨0, 1, -1⟩, ⟨0, 0, -1⟩)],
  [(⟨-1, 0, -1⟩, ⟨0, 0, -1⟩), (⟨0, 0, -1⟩, ⟨1, 0, -1⟩)],
  [(⟨0, 0, -1⟩, ⟨0, -1, -1⟩), (⟨1, 0, -1⟩, ⟨0, 0, -1⟩)],
  [(⟨-1, 0, -1⟩, ⟨0, -1, -1⟩), (⟨1, 0, -1⟩, ⟨0, 1, -1⟩)],
  [(⟨0, 0, -1⟩, ⟨0, -1, -1⟩), (⟨0, 1, -1⟩, ⟨0, 0, -1⟩)],
  [(⟨-1, 0, -1⟩, ⟨0, 0, -1⟩), (⟨0, 0, -1⟩, ⟨0, -1, -1⟩)],
  [(⟨0, -1, -1⟩, ⟨0, 0, -1⟩), (⟨0, 0, -1⟩, ⟨-1, 0, -1⟩)],
  [(⟨0, -1, -1⟩, ⟨0, 0, -1⟩), (⟨0, 0, -1⟩, ⟨0, 1, -1⟩)],
  [(⟨0, -1, -1⟩, ⟨1, 0, -1⟩), (⟨0, 1, -1⟩, ⟨-1, 0, -1⟩)],
  [(⟨0, -1, -1⟩, ⟨0, 0, -1⟩), (⟨0, 0, -1⟩, ⟨1, 0, -1⟩)],
  [(⟨0, 0, -1⟩, ⟨-1, 0, -1⟩), (⟨1, 0, -1⟩, ⟨0, 0, -1⟩)],
  [(⟨0, 0, -1⟩, ⟨0, 1, -1⟩), (⟨1, 0, -1⟩, ⟨0, 0, -1⟩)],
  [(⟨0, 0, -1⟩, ⟨-1, 0, -1⟩), (⟨0, 1, -1⟩, ⟨0, 0, -1⟩)],
  []]

/-- Cut an edge in two if its middle is a lattice point. -/
def cutEdge (e : Key × Key) : Bool :=
  (e.2.X - e.1.X) % 2 == 0 && (e.2.Y - e.1.Y) % 2 == 0 && (e.2.Z - e.1.Z) % 2 == 0

def kMid (e : Key × Key) : Key := ⟨(e.1.X + e.2.X) / 2, (e.1.Y + e.2.Y) / 2, (e.1.Z + e.2.Z) / 2⟩

def kHalves (e : Key × Key) : List (Key × Key) := [(e.1, kMid e), (kMid e, e.2)]

def pieces (l : List (Key × Key)) : List (Key × Key) :=
  l.flatMap fun e => if cutEdge e then kHalves e else [e]

/-- The edges of configuration `n`, relative to the cell. -/
def cfgEdges (n : Nat) : List (Key × Key) := (gridTris n).flatMap triEdges

def bit4 (n a b c d : Nat) : Nat :=
  (if n.testBit a then 1 else 0) + (if n.testBit b then 2 else 0) +
  (if n.testBit c then 4 else 0) + (if n.testBit d then 8 else 0)

/-- Edges of a cell, low faces reversed, high faces. -/
def ring (n : Nat) : List (Key × Key) :=
  pieces (cfgEdges n) ++
    ((lowTableX.getD (bit4 n 0 3 4 7) [] ++ lowTableY.getD (bit4 n 3 2 7 6) [] ++
      lowTableZ.getD (bit4 n 0 1 2 3) []).map Prod.swap) ++
    (shiftE ⟨1, 0, 0⟩ (lowTableX.getD (bit4 n 1 2 5 6) []) ++
      shiftE ⟨0, 1, 0⟩ (lowTableY.getD (bit4 n 0 1 4 5) []) ++
      shiftE ⟨0, 0, 1⟩ (lowTableZ.getD (bit4 n 4 5 6 7) []))

theorem ring_closed : ∀ n ∈ goodConfigs, (ring n).isPerm ((ring n).map Prod.swap) = true := by
  decide +kernel

theorem good_lt : ∀ n ∈ goodConfigs, n < 256 := by decide +kernel

/-- A cell's edges are its low faces minus its high faces. -/
theorem cell_net {n : Nat} (h : n ∈ goodConfigs) (k u v : Key) :
    net (shiftE k (pieces (cfgEdges n))) u v =
      (net (shiftE k (lowTableX.getD (bit4 n 0 3 4 7) [])) u v -
        net (shiftE (k.shift 1 0 0) (lowTableX.getD (bit4 n 1 2 5 6) [])) u v) +
      (net (shiftE k (lowTableY.getD (bit4 n 3 2 7 6) [])) u v -
        net (shiftE (k.shift 0 1 0) (lowTableY.getD (bit4 n 0 1 4 5) [])) u v) +
      (net (shiftE k (lowTableZ.getD (bit4 n 0 1 2 3) [])) u v -
        net (shiftE (k.shift 0 0 1) (lowTableZ.getD (bit4 n 4 5 6 7) [])) u v) := by
  have h0 : net (shiftE k (ring n)) u v = 0 := by
    apply net_zero_of_perm
    have := List.isPerm_iff.mp (ring_closed n h)
    have h2 := this.map (fun e : Key × Key =>
      (e.1.shift (2 * k.X) (2 * k.Y) (2 * k.Z), e.2.shift (2 * k.X) (2 * k.Y) (2 * k.Z)))
    unfold shiftE
    rw [List.map_map] at h2 ⊢
    exact h2
  unfold ring at h0
  simp only [shiftE_append, shiftE_swap, net_append, net_swap, shiftE_shiftE, List.map_append] at h0
  linarith

theorem low_nonempty {T : List (List (Key × Key))} (hT : T.getD 0 [] = []) {n a b c d : Nat}
    (h : T.getD (bit4 n a b c d) [] ≠ []) :
    ∃ i, (i = a ∨ i = b ∨ i = c ∨ i = d) ∧ n.testBit i = true := by
  by_contra hn
  push Not at hn
  apply h
  have e : ∀ i, (i = a ∨ i = b ∨ i = c ∨ i = d) → n.testBit i = false := by
    intro i hi
    simpa using hn i hi
  unfold bit4
  rw [e a (by simp), e b (by simp), e c (by simp), e d (by simp)]
  exact hT

/-- All cells together: every directed edge as often as its reverse.  `cfg k` holds, in bit `i`,
    whether corner `i` of cell `k` is present. -/
theorem all_cells_closed (pr : Key → Bool) (cfg : Key → Nat)
    (hcfg : ∀ k, ∀ i < 8, (cfg k).testBit i = pr (corner k i))
    (ord : List Key) (hnd : ord.Nodup)
    (hmem : ∀ k, (∃ i < 8, pr (corner k i) = true) → k ∈ ord)
    (hgood : ∀ k ∈ ord, cfg k ∈ goodConfigs) :
    (ord.flatMap fun k => shiftE k (pieces (cfgEdges (cfg k)))).Perm
      ((ord.flatMap fun k => shiftE k (pieces (cfgEdges (cfg k)))).map Prod.swap) := by
  apply perm_of_net
  intro u v
  have hsum : ∀ (l : List Key) (f : Key → List (Key × Key)),
      net (l.flatMap f) u v = (l.map fun k => net (f k) u v).sum := by
    intro l f
    induction l with
    | nil => rfl
    | cons a l ih => rw [List.flatMap_cons, net_append, ih, List.map_cons, List.sum_cons]
  have hb : ∀ (k d : Key) (a b c e a' b' c' e' : Nat) (_ : a < 8) (_ : b < 8) (_ : c < 8) (_ : e < 8)
      (_ : a' < 8) (_ : b' < 8) (_ : c' < 8) (_ : e' < 8)
      (_ : cornerOff a = (cornerOff a').shift (-d.X) (-d.Y) (-d.Z))
      (_ : cornerOff b = (cornerOff b').shift (-d.X) (-d.Y) (-d.Z))
      (_ : cornerOff c = (cornerOff c').shift (-d.X) (-d.Y) (-d.Z))
      (_ : cornerOff e = (cornerOff e').shift (-d.X) (-d.Y) (-d.Z)),
      bit4 (cfg k) a' b' c' e' = bit4 (cfg (k.shift d.X d.Y d.Z)) a b c e := by
    intro k d a b c e a' b' c' e' ha hb hc he ha' hb' hc' he' h1 h2 h3 h4
    unfold bit4
    rw [hcfg _ _ ha, hcfg _ _ hb, hcfg _ _ hc, hcfg _ _ he, hcfg _ _ ha', hcfg _ _ hb', hcfg _ _ hc',
      hcfg _ _ he', corner_shift k d a a' h1, corner_shift k d b b' h2, corner_shift k d c c' h3,
      corner_shift k d e e' h4]
  rw [hsum, ← List.sum_toFinset _ hnd]
  have hcell : ∀ k ∈ ord.toFinset, net (shiftE k (pieces (cfgEdges (cfg k)))) u v =
      ((fun k => net (shiftE k (lowTableX.getD (bit4 (cfg k) 0 3 4 7) [])) u v) k -
        (fun k => net (shiftE k (lowTableX.getD (bit4 (cfg k) 0 3 4 7) [])) u v) (k.shift 1 0 0)) +
      ((fun k => net (shiftE k (lowTableY.getD (bit4 (cfg k) 3 2 7 6) [])) u v) k -
        (fun k => net (shiftE k (lowTableY.getD (bit4 (cfg k) 3 2 7 6) [])) u v) (k.shift 0 1 0)) +
      ((fun k => net (shiftE k (lowTableZ.getD (bit4 (cfg k) 0 1 2 3) [])) u v) k -
        (fun k => net (shiftE k (lowTableZ.getD (bit4 (cfg k) 0 1 2 3) [])) u v) (k.shift 0 0 1)) := by
    intro k hk
    rw [cell_net (hgood k (List.mem_toFinset.mp hk))]
    have e1 := hb k ⟨1, 0, 0⟩ 0 3 4 7 1 2 5 6 (by decide) (by decide) (by decide) (by decide)
      (by decide) (by decide) (by decide) (by decide) (by decide) (by decide) (by decide) (by decide)
    have e2 := hb k ⟨0, 1, 0⟩ 3 2 7 6 0 1 4 5 (by decide) (by decide) (by decide) (by decide)
      (by decide) (by decide) (by decide) (by decide) (by decide) (by decide) (by decide) (by decide)
    have e3 := hb k ⟨0, 0, 1⟩ 0 1 2 3 4 5 6 7 (by decide) (by decide) (by decide) (by decide)
      (by decide) (by decide) (by decide) (by decide) (by decide) (by decide) (by decide) (by decide)
    rw [e1, e2, e3]
  rw [Finset.sum_congr rfl hcell, Finset.sum_add_distrib, Finset.sum_add_distrib]
  have key : ∀ (T : List (List (Key × Key))) (_ : T.getD 0 [] = []) (d : Key) (a b c e a' b' c' e' : Nat)
      (_ : a < 8) (_ : b < 8) (_ : c < 8) (_ : e < 8)
      (_ : a' < 8) (_ : b' < 8) (_ : c' < 8) (_ : e' < 8)
      (_ : cornerOff a' = (cornerOff a).shift (- -d.X) (- -d.Y) (- -d.Z))
      (_ : cornerOff b' = (cornerOff b).shift (- -d.X) (- -d.Y) (- -d.Z))
      (_ : cornerOff c' = (cornerOff c).shift (- -d.X) (- -d.Y) (- -d.Z))
      (_ : cornerOff e' = (cornerOff e).shift (- -d.X) (- -d.Y) (- -d.Z)),
      ∑ k ∈ ord.toFinset, ((fun k => net (shiftE k (T.getD (bit4 (cfg k) a b c e) [])) u v) k -
        (fun k => net (shiftE k (T.getD (bit4 (cfg k) a b c e) [])) u v) (k.shift d.X d.Y d.Z)) = 0 := by
    intro T hT d a b c e a' b' c' e' ha hb hc he ha' hb' hc' he' h1 h2 h3 h4
    apply telescope
    intro k hk
    have hne : T.getD (bit4 (cfg k) a b c e) [] ≠ [] := by
      intro h
      apply hk
      rw [h]
      rfl
    obtain ⟨i, hi, hp⟩ := low_nonempty hT hne
    rw [hcfg k i (by omega)] at hp
    refine ⟨List.mem_toFinset.mpr (hmem k ⟨i, by omega, hp⟩), List.mem_toFinset.mpr (hmem _ ?_)⟩
    have hs : ∀ j j', cornerOff j' = (cornerOff j).shift (- -d.X) (- -d.Y) (- -d.Z) →
        corner (k.shift (-d.X) (-d.Y) (-d.Z)) j' = corner k j := fun j j' h =>
      corner_shift k ⟨-d.X, -d.Y, -d.Z⟩ j' j h
    rcases hi with rfl | rfl | rfl | rfl
    · exact ⟨a', ha', by rw [hs _ _ h1]; exact hp⟩
    · exact ⟨b', hb', by rw [hs _ _ h2]; exact hp⟩
    · exact ⟨c', hc', by rw [hs _ _ h3]; exact hp⟩
    · exact ⟨e', he', by rw [hs _ _ h4]; exact hp⟩
  have kx := key lowTableX rfl ⟨1, 0, 0⟩ 0 3 4 7 1 2 5 6 (by decide) (by decide) (by decide) (by decide)
    (by decide) (by decide) (by decide) (by decide) (by decide) (by decide) (by decide) (by decide)
  have ky := key lowTableY rfl ⟨0, 1, 0⟩ 3 2 7 6 0 1 4 5 (by decide) (by decide) (by decide) (by decide)
    (by decide) (by decide) (by decide) (by decide) (by decide) (by decide) (by decide) (by decide)
  have kz := key lowTableZ rfl ⟨0, 0, 1⟩ 0 1 2 3 4 5 6 7 (by decide) (by decide) (by decide) (by decide)
    (by decide) (by decide) (by decide) (by decide) (by decide) (by decide) (by decide) (by decide)
  rw [kx, ky, kz]
  rfl

end Manifold
end StlDice
