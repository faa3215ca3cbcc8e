import Verif.Lemmas.SMB
import Mathlib.Algebra.Group.Basic
import Mathlib.Tactic.Tauto

/-! The overlay pass over grids whose overlays are empty: it copies the border cells of every domain into the overlays
of its neighbours and changes nothing else (corners of the overlays aside). -/

set_option linter.unusedSimpArgs false
set_option linter.unusedVariables false

namespace Pico
namespace SMB

variable {T : Type _}

/-- State of the pass: `DX`, `DY`, `DXY` tell which exchanges have been done. -/
structure Halo [Zero T] (os : Nat) (xs ys : Nat → Nat) (nr nz : Nat) (m m' : DLoc → T) (DX DY DXY : Nat → Nat → Prop) :
    Prop where
  log : ∀ i j r c, i < nr → j < nz → os ≤ r → r < xs i + os → os ≤ c → c < ys j + os → m' (i, j, r, c) = m (i, j, r, c)
  xh : ∀ i j r c, i + 1 < nr → j < nz → xs i + os ≤ r → r < xs i + 2*os → os ≤ c → c < ys j + os →
    (DX i j → m' (i, j, r, c) = m (i+1, j, r - xs i, c)) ∧ (¬ DX i j → m' (i, j, r, c) = 0)
  xl : ∀ i j r c, i + 1 < nr → j < nz → r < os → os ≤ c → c < ys j + os →
    (DX i j → m' (i+1, j, r, c) = m (i, j, xs i + r, c)) ∧ (¬ DX i j → m' (i+1, j, r, c) = 0)
  yh : ∀ i j r c, i < nr → j + 1 < nz → ys j + os ≤ c → c < ys j + 2*os → os ≤ r → r < xs i + os →
    (DY i j → m' (i, j, r, c) = m (i, j+1, r, c - ys j)) ∧ (¬ DY i j → m' (i, j, r, c) = 0)
  yl : ∀ i j r c, i < nr → j + 1 < nz → c < os → os ≤ r → r < xs i + os →
    (DY i j → m' (i, j+1, r, c) = m (i, j, r, ys j + c)) ∧ (¬ DY i j → m' (i, j+1, r, c) = 0)
  hh : ∀ i j r c, i + 1 < nr → j + 1 < nz → xs i + os ≤ r → r < xs i + 2*os → ys j + os ≤ c → c < ys j + 2*os →
    (DXY i j → m' (i, j, r, c) = m (i+1, j+1, r - xs i, c - ys j)) ∧ (¬ DXY i j → m' (i, j, r, c) = 0)
  ll : ∀ i j r c, i + 1 < nr → j + 1 < nz → r < os → c < os →
    (DXY i j → m' (i+1, j+1, r, c) = m (i, j, xs i + r, ys j + c)) ∧ (¬ DXY i j → m' (i+1, j+1, r, c) = 0)
  oc : ∀ i j r c, i < nr → j < nz → (r < os ∨ xs i + os ≤ r) → (c < os ∨ ys j + os ≤ c) →
    ¬ (xs i + os ≤ r ∧ ys j + os ≤ c ∧ i + 1 < nr ∧ j + 1 < nz) → ¬ (r < os ∧ c < os ∧ 0 < i ∧ 0 < j) →
    m' (i, j, r, c) = m (i, j, r, c)
  oxl : ∀ j r c, j < nz → r < os → os ≤ c → c < ys j + os → m' (0, j, r, c) = m (0, j, r, c)
  oxh : ∀ i j r c, i + 1 = nr → j < nz → xs i + os ≤ r → os ≤ c → c < ys j + os → m' (i, j, r, c) = m (i, j, r, c)
  oyl : ∀ i r c, i < nr → c < os → os ≤ r → r < xs i + os → m' (i, 0, r, c) = m (i, 0, r, c)
  oyh : ∀ i j r c, i < nr → j + 1 = nz → ys j + os ≤ c → os ≤ r → r < xs i + os → m' (i, j, r, c) = m (i, j, r, c)

theorem Halo.start [Zero T] (os : Nat) (xs ys : Nat → Nat) (nr nz : Nat) (m : DLoc → T)
    (hz : ∀ i j r c, i < nr → j < nz → r < xs i + 2*os → c < ys j + 2*os →
      ¬ ((os ≤ r ∧ r < xs i + os) ∧ os ≤ c ∧ c < ys j + os) → m (i, j, r, c) = 0)
    : Halo os xs ys nr nz m m (fun _ _ => False) (fun _ _ => False) (fun _ _ => False) := by
  constructor
  · intros; rfl
  · intro i j r c h1 h2 h3 h4 h5 h6
    exact ⟨False.elim, fun _ => hz _ _ _ _ (by omega) h2 (by omega) (by omega) (by omega)⟩
  · intro i j r c h1 h2 h3 h4 h5
    exact ⟨False.elim, fun _ => hz _ _ _ _ (by omega) h2 (by omega) (by omega) (by omega)⟩
  · intro i j r c h1 h2 h3 h4 h5 h6
    exact ⟨False.elim, fun _ => hz _ _ _ _ (by omega) (by omega) (by omega) (by omega) (by omega)⟩
  · intro i j r c h1 h2 h3 h4 h5
    exact ⟨False.elim, fun _ => hz _ _ _ _ (by omega) (by omega) (by omega) (by omega) (by omega)⟩
  · intro i j r c h1 h2 h3 h4 h5 h6
    exact ⟨False.elim, fun _ => hz _ _ _ _ (by omega) (by omega) (by omega) (by omega) (by omega)⟩
  · intro i j r c h1 h2 h3 h4
    exact ⟨False.elim, fun _ => hz _ _ _ _ (by omega) (by omega) (by omega) (by omega) (by omega)⟩
  · intros; rfl
  · intros; rfl
  · intros; rfl
  · intros; rfl
  · intros; rfl

section
variable [AddCommMonoid T]

theorem stX_pos {os : Nat} {xs ys : Nat → Nat} {a b : Nat} {m : DLoc → T} {i j r c : Nat}
    (h1 : j = b ∧ os ≤ c ∧ c < ys b + os) (h2 : i = a ∧ xs a ≤ r ∧ r < xs a + 2*os) :
    stX os xs ys a b m (i, j, r, c) = m (a, b, r, c) + m (a+1, b, r - xs a, c) := by
  unfold stX
  dsimp only
  rw [if_pos h1, if_pos h2]

theorem stX_pos' {os : Nat} {xs ys : Nat → Nat} {a b : Nat} {m : DLoc → T} {i j r c : Nat}
    (h1 : j = b ∧ os ≤ c ∧ c < ys b + os) (h2 : i = a + 1 ∧ r < 2*os) :
    stX os xs ys a b m (i, j, r, c) = m (a, b, xs a + r, c) + m (a+1, b, r, c) := by
  unfold stX
  dsimp only
  rw [if_pos h1, if_neg (by omega), if_pos h2]

theorem stX_neg {os : Nat} {xs ys : Nat → Nat} {a b : Nat} {m : DLoc → T} {i j r c : Nat}
    (h : ¬ ((j = b ∧ os ≤ c ∧ c < ys b + os) ∧ ((i = a ∧ xs a ≤ r ∧ r < xs a + 2*os) ∨ (i = a + 1 ∧ r < 2*os)))) :
    stX os xs ys a b m (i, j, r, c) = m (i, j, r, c) := by
  unfold stX
  dsimp only
  by_cases h1 : j = b ∧ os ≤ c ∧ c < ys b + os
  · rw [if_pos h1, if_neg (by tauto), if_neg (by tauto)]
  · rw [if_neg h1]

theorem stY_pos {os : Nat} {xs ys : Nat → Nat} {a b : Nat} {m : DLoc → T} {i j r c : Nat}
    (h1 : i = a ∧ os ≤ r ∧ r < xs a + os) (h2 : j = b ∧ ys b ≤ c ∧ c < ys b + 2*os) :
    stY os xs ys a b m (i, j, r, c) = m (a, b, r, c) + m (a, b+1, r, c - ys b) := by
  unfold stY
  dsimp only
  rw [if_pos h1, if_pos h2]

theorem stY_pos' {os : Nat} {xs ys : Nat → Nat} {a b : Nat} {m : DLoc → T} {i j r c : Nat}
    (h1 : i = a ∧ os ≤ r ∧ r < xs a + os) (h2 : j = b + 1 ∧ c < 2*os) :
    stY os xs ys a b m (i, j, r, c) = m (a, b, r, ys b + c) + m (a, b+1, r, c) := by
  unfold stY
  dsimp only
  rw [if_pos h1, if_neg (by omega), if_pos h2]

theorem stY_neg {os : Nat} {xs ys : Nat → Nat} {a b : Nat} {m : DLoc → T} {i j r c : Nat}
    (h : ¬ ((i = a ∧ os ≤ r ∧ r < xs a + os) ∧ ((j = b ∧ ys b ≤ c ∧ c < ys b + 2*os) ∨ (j = b + 1 ∧ c < 2*os)))) :
    stY os xs ys a b m (i, j, r, c) = m (i, j, r, c) := by
  unfold stY
  dsimp only
  by_cases h1 : i = a ∧ os ≤ r ∧ r < xs a + os
  · rw [if_pos h1, if_neg (by tauto), if_neg (by tauto)]
  · rw [if_neg h1]

theorem Halo.stepX {os : Nat} {xs ys : Nat → Nat} {nr nz : Nat} {m m' : DLoc → T} {DX DY DXY : Nat → Nat → Prop}
    (H : Halo os xs ys nr nz m m' DX DY DXY) (hxs : ∀ i, i < nr → os ≤ xs i) (a b : Nat) (ha : a + 1 < nr) (hb : b < nz)
    (hn : ¬ DX a b) :
    Halo os xs ys nr nz m (stX os xs ys a b m') (fun i j => DX i j ∨ (i = a ∧ j = b)) DY DXY := by
  have xa := hxs a (by omega)
  have xa1 := hxs (a+1) ha
  constructor
  · intro i j r c h1 h2 h3 h4 h5 h6
    by_cases p : (j = b ∧ os ≤ c ∧ c < ys b + os) ∧ ((i = a ∧ xs a ≤ r ∧ r < xs a + 2*os) ∨ (i = a + 1 ∧ r < 2*os))
    · obtain ⟨p1, p2 | p2⟩ := p
      · obtain ⟨rfl, q⟩ := p2
        obtain ⟨rfl, q'⟩ := p1
        rw [stX_pos ⟨rfl, q'⟩ ⟨rfl, q⟩, H.log i j r c h1 h2 h3 h4 h5 h6,
          (H.xl i j (r - xs i) c ha hb (by omega) h5 h6).2 hn, add_zero]
      · obtain ⟨rfl, q⟩ := p2
        obtain ⟨rfl, q'⟩ := p1
        rw [stX_pos' ⟨rfl, q'⟩ ⟨rfl, q⟩, H.log (a+1) j r c h1 h2 h3 h4 h5 h6,
          (H.xh a j (xs a + r) c ha hb (by omega) (by omega) h5 h6).2 hn, zero_add]
    · rw [stX_neg p, H.log i j r c h1 h2 h3 h4 h5 h6]
  · intro i j r c h1 h2 h3 h4 h5 h6
    by_cases p : i = a ∧ j = b
    · obtain ⟨rfl, rfl⟩ := p
      refine ⟨fun _ => ?_, fun h => absurd (Or.inr ⟨rfl, rfl⟩) h⟩
      rw [stX_pos ⟨rfl, h5, h6⟩ ⟨rfl, by omega, h4⟩, (H.xh i j r c ha hb h3 h4 h5 h6).2 hn, zero_add,
        H.log (i+1) j (r - xs i) c h1 h2 (by omega) (by omega) h5 h6]
    · have q : stX os xs ys a b m' (i, j, r, c) = m' (i, j, r, c) := by
        apply stX_neg
        rintro ⟨k1, k2 | k2⟩
        · omega
        · have := hxs i (by omega)
          obtain ⟨rfl, k⟩ := k2
          omega
      rw [q]
      have := H.xh i j r c h1 h2 h3 h4 h5 h6
      exact ⟨fun h => this.1 (h.resolve_right p), fun h => this.2 (fun k => h (Or.inl k))⟩
  · intro i j r c h1 h2 h3 h5 h6
    by_cases p : i = a ∧ j = b
    · obtain ⟨rfl, rfl⟩ := p
      refine ⟨fun _ => ?_, fun h => absurd (Or.inr ⟨rfl, rfl⟩) h⟩
      rw [stX_pos' ⟨rfl, h5, h6⟩ ⟨rfl, by omega⟩, (H.xl i j r c ha hb h3 h5 h6).2 hn, add_zero,
        H.log i j (xs i + r) c (by omega) h2 (by omega) (by omega) h5 h6]
    · have q : stX os xs ys a b m' (i + 1, j, r, c) = m' (i + 1, j, r, c) := by
        apply stX_neg
        rintro ⟨k1, k2 | k2⟩
        · obtain ⟨rfl, k⟩ := k2
          omega
        · omega
      rw [q]
      have := H.xl i j r c h1 h2 h3 h5 h6
      exact ⟨fun h => this.1 (h.resolve_right p), fun h => this.2 (fun k => h (Or.inl k))⟩
  · intro i j r c h1 h2 h3 h4 h5 h6
    rw [stX_neg (by rintro ⟨⟨rfl, k⟩, _⟩; omega)]
    exact H.yh i j r c h1 h2 h3 h4 h5 h6
  · intro i j r c h1 h2 h3 h5 h6
    rw [stX_neg (by omega)]
    exact H.yl i j r c h1 h2 h3 h5 h6
  · intro i j r c h1 h2 h3 h4 h5 h6
    rw [stX_neg (by rintro ⟨⟨rfl, k⟩, _⟩; omega)]
    exact H.hh i j r c h1 h2 h3 h4 h5 h6
  · intro i j r c h1 h2 h3 h4
    rw [stX_neg (by omega)]
    exact H.ll i j r c h1 h2 h3 h4
  · intro i j r c h1 h2 h3 h4 h5 h6
    rw [stX_neg (by rintro ⟨⟨rfl, k⟩, _⟩; omega)]
    exact H.oc i j r c h1 h2 h3 h4 h5 h6
  · intro j r c h1 h2 h3 h4
    rw [stX_neg (by rintro ⟨_, ⟨rfl, k⟩ | k⟩ <;> omega)]
    exact H.oxl j r c h1 h2 h3 h4
  · intro i j r c h1 h2 h3 h4 h5
    rw [stX_neg (by
      rintro ⟨_, k | k⟩
      · omega
      · obtain ⟨rfl, k⟩ := k
        omega)]
    exact H.oxh i j r c h1 h2 h3 h4 h5
  · intro i r c h1 h2 h3 h4
    rw [stX_neg (by omega)]
    exact H.oyl i r c h1 h2 h3 h4
  · intro i j r c h1 h2 h3 h4 h5
    rw [stX_neg (by rintro ⟨⟨rfl, k⟩, _⟩; omega)]
    exact H.oyh i j r c h1 h2 h3 h4 h5

theorem Halo.stepY {os : Nat} {xs ys : Nat → Nat} {nr nz : Nat} {m m' : DLoc → T} {DX DY DXY : Nat → Nat → Prop}
    (H : Halo os xs ys nr nz m m' DX DY DXY) (hys : ∀ j, j < nz → os ≤ ys j) (a b : Nat) (ha : a < nr) (hb : b + 1 < nz)
    (hn : ¬ DY a b) :
    Halo os xs ys nr nz m (stY os xs ys a b m') DX (fun i j => DY i j ∨ (i = a ∧ j = b)) DXY := by
  have yb := hys b (by omega)
  have yb1 := hys (b+1) hb
  constructor
  · intro i j r c h1 h2 h3 h4 h5 h6
    by_cases p : (i = a ∧ os ≤ r ∧ r < xs a + os) ∧ ((j = b ∧ ys b ≤ c ∧ c < ys b + 2*os) ∨ (j = b + 1 ∧ c < 2*os))
    · obtain ⟨p1, p2 | p2⟩ := p
      · obtain ⟨rfl, q⟩ := p2
        obtain ⟨rfl, q'⟩ := p1
        rw [stY_pos ⟨rfl, q'⟩ ⟨rfl, q⟩, H.log i j r c h1 h2 h3 h4 h5 h6,
          (H.yl i j r (c - ys j) ha hb (by omega) h3 h4).2 hn, add_zero]
      · obtain ⟨rfl, q⟩ := p2
        obtain ⟨rfl, q'⟩ := p1
        rw [stY_pos' ⟨rfl, q'⟩ ⟨rfl, q⟩, H.log i (b+1) r c h1 h2 h3 h4 h5 h6,
          (H.yh i b r (ys b + c) ha hb (by omega) (by omega) h3 h4).2 hn, zero_add]
    · rw [stY_neg p, H.log i j r c h1 h2 h3 h4 h5 h6]
  · intro i j r c h1 h2 h3 h4 h5 h6
    rw [stY_neg (by rintro ⟨⟨rfl, k⟩, _⟩; omega)]
    exact H.xh i j r c h1 h2 h3 h4 h5 h6
  · intro i j r c h1 h2 h3 h5 h6
    rw [stY_neg (by omega)]
    exact H.xl i j r c h1 h2 h3 h5 h6
  · intro i j r c h1 h2 h3 h4 h5 h6
    by_cases p : i = a ∧ j = b
    · obtain ⟨rfl, rfl⟩ := p
      refine ⟨fun _ => ?_, fun h => absurd (Or.inr ⟨rfl, rfl⟩) h⟩
      rw [stY_pos ⟨rfl, h5, h6⟩ ⟨rfl, by omega, h4⟩, (H.yh i j r c ha hb h3 h4 h5 h6).2 hn, zero_add,
        H.log i (j+1) r (c - ys j) h1 h2 h5 h6 (by omega) (by omega)]
    · have q : stY os xs ys a b m' (i, j, r, c) = m' (i, j, r, c) := by
        apply stY_neg
        rintro ⟨k1, k2 | k2⟩
        · omega
        · have := hys j (by omega)
          obtain ⟨rfl, k⟩ := k2
          omega
      rw [q]
      have := H.yh i j r c h1 h2 h3 h4 h5 h6
      exact ⟨fun h => this.1 (h.resolve_right p), fun h => this.2 (fun k => h (Or.inl k))⟩
  · intro i j r c h1 h2 h3 h5 h6
    by_cases p : i = a ∧ j = b
    · obtain ⟨rfl, rfl⟩ := p
      refine ⟨fun _ => ?_, fun h => absurd (Or.inr ⟨rfl, rfl⟩) h⟩
      rw [stY_pos' ⟨rfl, h5, h6⟩ ⟨rfl, by omega⟩, (H.yl i j r c ha hb h3 h5 h6).2 hn, add_zero,
        H.log i j r (ys j + c) h1 (by omega) h5 h6 (by omega) (by omega)]
    · have q : stY os xs ys a b m' (i, j + 1, r, c) = m' (i, j + 1, r, c) := by
        apply stY_neg
        rintro ⟨k1, k2 | k2⟩
        · obtain ⟨rfl, k⟩ := k2
          omega
        · omega
      rw [q]
      have := H.yl i j r c h1 h2 h3 h5 h6
      exact ⟨fun h => this.1 (h.resolve_right p), fun h => this.2 (fun k => h (Or.inl k))⟩
  · intro i j r c h1 h2 h3 h4 h5 h6
    rw [stY_neg (by rintro ⟨⟨rfl, k⟩, _⟩; omega)]
    exact H.hh i j r c h1 h2 h3 h4 h5 h6
  · intro i j r c h1 h2 h3 h4
    rw [stY_neg (by omega)]
    exact H.ll i j r c h1 h2 h3 h4
  · intro i j r c h1 h2 h3 h4 h5 h6
    rw [stY_neg (by rintro ⟨⟨rfl, k⟩, _⟩; omega)]
    exact H.oc i j r c h1 h2 h3 h4 h5 h6
  · intro j r c h1 h2 h3 h4
    rw [stY_neg (by omega)]
    exact H.oxl j r c h1 h2 h3 h4
  · intro i j r c h1 h2 h3 h4 h5
    rw [stY_neg (by rintro ⟨⟨rfl, k⟩, _⟩; omega)]
    exact H.oxh i j r c h1 h2 h3 h4 h5
  · intro i r c h1 h2 h3 h4
    rw [stY_neg (by rintro ⟨_, ⟨rfl, k⟩ | k⟩ <;> omega)]
    exact H.oyl i r c h1 h2 h3 h4
  · intro i j r c h1 h2 h3 h4 h5
    rw [stY_neg (by
      rintro ⟨_, k | k⟩
      · omega
      · obtain ⟨rfl, k⟩ := k
        omega)]
    exact H.oyh i j r c h1 h2 h3 h4 h5

theorem Halo.stepXY {os : Nat} {xs ys : Nat → Nat} {nr nz : Nat} {m m' : DLoc → T} {DX DY DXY : Nat → Nat → Prop}
    (H : Halo os xs ys nr nz m m' DX DY DXY) (n : Nat) (hn0 : os ≤ n) (hxs : ∀ i, i < nr → xs i = n)
    (hys : ∀ j, j < nz → ys j = n) (a b : Nat) (ha : a + 1 < nr) (hb : b + 1 < nz) (hn : ¬ DXY a b) :
    Halo os xs ys nr nz m (stXY os n a b m') DX DY (fun i j => DXY i j ∨ (i = a ∧ j = b)) := by
  -- cells that are neither logical nor in the two outer corners are not touched
  have keep : ∀ i j r c, i < nr → j < nz →
      ((os ≤ r ∧ r < n + os) ∧ ¬ (os ≤ c ∧ c < n + os) ∨ ¬ (os ≤ r ∧ r < n + os) ∧ (os ≤ c ∧ c < n + os)) →
      stXY os n a b m' (i, j, r, c) = m' (i, j, r, c) := by
    intro i j r c h1 h2 h3
    unfold stXY
    dsimp only
    rw [if_neg (by omega), if_neg (by omega)]
  constructor
  · intro i j r c h1 h2 h3 h4 h5 h6
    have e1 := hxs i h1
    have e2 := hys j h2
    have L := H.log i j r c h1 h2 h3 h4 h5 h6
    unfold stXY
    dsimp only
    split
    · rename_i h
      obtain ⟨rfl, rfl, h⟩ := h
      rw [L, (H.ll i j (r - n) (c - n) ha hb (by omega) (by omega)).2 hn, add_zero]
    · split
      · rename_i h
        obtain ⟨rfl, rfl, h⟩ := h
        rw [L, (H.hh a b (n + r) (n + c) ha hb (by rw [hxs a (by omega)]; omega) (by rw [hxs a (by omega)]; omega)
          (by rw [hys b (by omega)]; omega) (by rw [hys b (by omega)]; omega)).2 hn, zero_add]
      · exact L
  · intro i j r c h1 h2 h3 h4 h5 h6
    have e1 := hxs i (by omega)
    have e2 := hys j h2
    rw [keep i j r c (by omega) h2 (by omega)]
    exact H.xh i j r c h1 h2 h3 h4 h5 h6
  · intro i j r c h1 h2 h3 h5 h6
    have e2 := hys j h2
    rw [keep (i+1) j r c (by omega) h2 (by omega)]
    exact H.xl i j r c h1 h2 h3 h5 h6
  · intro i j r c h1 h2 h3 h4 h5 h6
    have e1 := hxs i (by omega)
    have e2 := hys j (by omega)
    rw [keep i j r c h1 (by omega) (by omega)]
    exact H.yh i j r c h1 h2 h3 h4 h5 h6
  · intro i j r c h1 h2 h3 h5 h6
    have e1 := hxs i (by omega)
    rw [keep i (j+1) r c h1 (by omega) (by omega)]
    exact H.yl i j r c h1 h2 h3 h5 h6
  · intro i j r c h1 h2 h3 h4 h5 h6
    have e1 := hxs i (by omega)
    have e2 := hys j (by omega)
    by_cases p : i = a ∧ j = b
    · obtain ⟨rfl, rfl⟩ := p
      refine ⟨fun _ => ?_, fun h => absurd (Or.inr ⟨rfl, rfl⟩) h⟩
      unfold stXY
      dsimp only
      rw [if_pos (by omega), (H.hh i j r c h1 h2 h3 h4 h5 h6).2 hn, zero_add, e1, e2]
      exact H.log (i+1) (j+1) (r - n) (c - n) h1 h2 (by omega) (by have := hxs (i+1) h1; omega) (by omega)
        (by have := hys (j+1) h2; omega)
    · unfold stXY
      dsimp only
      rw [if_neg (by rintro ⟨k1, k2, _⟩; exact p ⟨k1, k2⟩), if_neg (by omega)]
      have := H.hh i j r c h1 h2 h3 h4 h5 h6
      exact ⟨fun h => this.1 (h.resolve_right p), fun h => this.2 (fun k => h (Or.inl k))⟩
  · intro i j r c h1 h2 h3 h4
    have e1 := hxs i (by omega)
    have e2 := hys j (by omega)
    by_cases p : i = a ∧ j = b
    · obtain ⟨rfl, rfl⟩ := p
      refine ⟨fun _ => ?_, fun h => absurd (Or.inr ⟨rfl, rfl⟩) h⟩
      unfold stXY
      dsimp only
      rw [if_neg (by omega), if_pos (by omega), (H.ll i j r c h1 h2 h3 h4).2 hn, add_zero, e1, e2]
      exact H.log i j (n + r) (n + c) (by omega) (by omega) (by omega) (by omega) (by omega) (by omega)
    · unfold stXY
      dsimp only
      rw [if_neg (by omega), if_neg (by omega)]
      have := H.ll i j r c h1 h2 h3 h4
      exact ⟨fun h => this.1 (h.resolve_right p), fun h => this.2 (fun k => h (Or.inl k))⟩
  · intro i j r c h1 h2 h3 h4 h5 h6
    have e1 := hxs i h1
    have e2 := hys j h2
    unfold stXY
    dsimp only
    rw [if_neg (by omega), if_neg (by omega)]
    exact H.oc i j r c h1 h2 h3 h4 h5 h6
  · intro j r c h1 h2 h3 h4
    have e2 := hys j h1
    rw [keep 0 j r c (by omega) h1 (by omega)]
    exact H.oxl j r c h1 h2 h3 h4
  · intro i j r c h1 h2 h3 h4 h5
    have e1 := hxs i (by omega)
    have e2 := hys j h2
    rw [keep i j r c (by omega) h2 (by omega)]
    exact H.oxh i j r c h1 h2 h3 h4 h5
  · intro i r c h1 h2 h3 h4
    have e1 := hxs i h1
    rw [keep i 0 r c h1 (by omega) (by omega)]
    exact H.oyl i r c h1 h2 h3 h4
  · intro i j r c h1 h2 h3 h4 h5
    have e1 := hxs i h1
    have e2 := hys j (by omega)
    rw [keep i j r c h1 (by omega) (by omega)]
    exact H.oyh i j r c h1 h2 h3 h4 h5

theorem Halo.mono {os : Nat} {xs ys : Nat → Nat} {nr nz : Nat} {m m' : DLoc → T} {DX DY DXY EX EY EXY : Nat → Nat → Prop}
    (H : Halo os xs ys nr nz m m' DX DY DXY) (h1 : ∀ i j, i + 1 < nr → j < nz → (DX i j ↔ EX i j))
    (h2 : ∀ i j, i < nr → j + 1 < nz → (DY i j ↔ EY i j))
    (h3 : ∀ i j, i + 1 < nr → j + 1 < nz → (DXY i j ↔ EXY i j)) : Halo os xs ys nr nz m m' EX EY EXY := by
  refine ⟨H.log, ?_, ?_, ?_, ?_, ?_, ?_, H.oc, H.oxl, H.oxh, H.oyl, H.oyh⟩
  · intro i j r c a b x1 x2 x3 x4
    have := H.xh i j r c a b x1 x2 x3 x4
    rw [h1 i j a b] at this
    exact this
  · intro i j r c a b x1 x2 x3
    have := H.xl i j r c a b x1 x2 x3
    rw [h1 i j a b] at this
    exact this
  · intro i j r c a b x1 x2 x3 x4
    have := H.yh i j r c a b x1 x2 x3 x4
    rw [h2 i j a b] at this
    exact this
  · intro i j r c a b x1 x2 x3
    have := H.yl i j r c a b x1 x2 x3
    rw [h2 i j a b] at this
    exact this
  · intro i j r c a b x1 x2 x3 x4
    have := H.hh i j r c a b x1 x2 x3 x4
    rw [h3 i j a b] at this
    exact this
  · intro i j r c a b x1 x2
    have := H.ll i j r c a b x1 x2
    rw [h3 i j a b] at this
    exact this

theorem Halo.stepAt {os : Nat} {xs ys : Nat → Nat} {nr nz : Nat} {m m' : DLoc → T} {D : Nat → Nat → Prop}
    (H : Halo os xs ys nr nz m m' D D D) (G : Good nr nz xs ys) (hxs : ∀ i, i < nr → os ≤ xs i)
    (hys : ∀ j, j < nz → os ≤ ys j) (p : Nat × Nat) (hp : p.1 < nr ∧ p.2 < nz) (hn : ¬ D p.1 p.2) :
    Halo os xs ys nr nz m (stAt os xs ys nr nz m' p) (fun i j => D i j ∨ (i = p.1 ∧ j = p.2))
      (fun i j => D i j ∨ (i = p.1 ∧ j = p.2)) (fun i j => D i j ∨ (i = p.1 ∧ j = p.2)) := by
  obtain ⟨a, b⟩ := p
  dsimp only at hp hn ⊢
  have H1 : Halo os xs ys nr nz m (if a + 1 < nr then stX os xs ys a b m' else m')
      (fun i j => D i j ∨ (i = a ∧ j = b)) D D := by
    by_cases h : a + 1 < nr
    · rw [if_pos h]
      exact H.stepX hxs a b h hp.2 hn
    · rw [if_neg h]
      refine H.mono (fun i j h1 h2 => ⟨Or.inl, fun k => k.resolve_right (by omega)⟩) (fun _ _ _ _ => Iff.rfl) (fun _ _ _ _ => Iff.rfl)
  unfold stAt
  dsimp only
  generalize (if a + 1 < nr then stX os xs ys a b m' else m') = m1 at H1 ⊢
  have H2 : Halo os xs ys nr nz m (if b + 1 < nz then stY os xs ys a b m1 else m1)
      (fun i j => D i j ∨ (i = a ∧ j = b)) (fun i j => D i j ∨ (i = a ∧ j = b)) D := by
    by_cases h : b + 1 < nz
    · rw [if_pos h]
      exact H1.stepY hys a b hp.1 h hn
    · rw [if_neg h]
      refine H1.mono (fun _ _ _ _ => Iff.rfl) (fun i j h1 h2 => ⟨Or.inl, fun k => k.resolve_right (by omega)⟩) (fun _ _ _ _ => Iff.rfl)
  generalize (if b + 1 < nz then stY os xs ys a b m1 else m1) = m2 at H2 ⊢
  by_cases h : a + 1 < nr ∧ b + 1 < nz
  · rw [if_pos h]
    have g : (∀ i, i < nr → xs i = xs 0) ∧ ∀ j, j < nz → ys j = xs 0 := by
      rcases G with g | g | g
      · omega
      · omega
      · exact g
    exact H2.stepXY (xs 0) (hxs 0 (by omega)) g.1 g.2 a b h.1 h.2 hn
  · rw [if_neg h]
    exact H2.mono (fun _ _ _ _ => Iff.rfl) (fun _ _ _ _ => Iff.rfl)
      (fun i j h1 h2 => ⟨Or.inl, fun k => k.resolve_right (by omega)⟩)

theorem pass_halo (os : Nat) (xs ys : Nat → Nat) (nr nz : Nat) (G : Good nr nz xs ys) (hxs : ∀ i, i < nr → os ≤ xs i)
    (hys : ∀ j, j < nz → os ≤ ys j) (m : DLoc → T)
    (hz : ∀ i j r c, i < nr → j < nz → r < xs i + 2*os → c < ys j + 2*os →
      ¬ ((os ≤ r ∧ r < xs i + os) ∧ os ≤ c ∧ c < ys j + os) → m (i, j, r, c) = 0) :
    Halo os xs ys nr nz m ((sweep nr nz).foldl (stAt os xs ys nr nz) m) (fun i j => i < nr ∧ j < nz)
      (fun i j => i < nr ∧ j < nz) (fun i j => i < nr ∧ j < nz) := by
  have key : ∀ l : List (Nat × Nat), (∀ p ∈ l, p.1 < nr ∧ p.2 < nz) → l.Nodup →
      ∀ (m' : DLoc → T) (D : Nat → Nat → Prop), (∀ p ∈ l, ¬ D p.1 p.2) → Halo os xs ys nr nz m m' D D D →
      Halo os xs ys nr nz m (l.foldl (stAt os xs ys nr nz) m') (fun i j => D i j ∨ (i, j) ∈ l) (fun i j => D i j ∨ (i, j) ∈ l)
        (fun i j => D i j ∨ (i, j) ∈ l) := by
    intro l
    induction l with
    | nil =>
      intro _ _ m' D _ H
      exact H.mono (fun i j _ _ => ⟨Or.inl, fun k => k.resolve_right List.not_mem_nil⟩)
        (fun i j _ _ => ⟨Or.inl, fun k => k.resolve_right List.not_mem_nil⟩)
        (fun i j _ _ => ⟨Or.inl, fun k => k.resolve_right List.not_mem_nil⟩)
    | cons p l ih =>
      intro hl nd m' D hD H
      obtain ⟨n1, n2⟩ := List.nodup_cons.mp nd
      have H1 := H.stepAt G hxs hys p (hl p List.mem_cons_self) (hD p List.mem_cons_self)
      have H2 := ih (fun q hq => hl q (List.mem_cons_of_mem _ hq)) n2 _ _ (by
        intro q hq hh
        rcases hh with hh | hh
        · exact hD q (List.mem_cons_of_mem _ hq) hh
        · have : q = p := Prod.ext hh.1 hh.2
          rw [this] at hq
          exact n1 hq) H1
      have eq : ∀ i j, (D i j ∨ i = p.1 ∧ j = p.2) ∨ (i, j) ∈ l ↔ D i j ∨ (i, j) ∈ p :: l := by
        intro i j
        obtain ⟨a, b⟩ := p
        simp only [List.mem_cons, Prod.mk.injEq]
        tauto
      rw [List.foldl_cons]
      exact H2.mono (fun i j _ _ => eq i j) (fun i j _ _ => eq i j) (fun i j _ _ => eq i j)
  have := key (sweep nr nz) (fun p hp => mem_sweep.mp hp) (nodup_sweep nr nz) m (fun _ _ => False) (fun _ _ => id)
    (Halo.start os xs ys nr nz m hz)
  have e : ∀ i j, (False ∨ (i, j) ∈ sweep nr nz) ↔ i < nr ∧ j < nz := by
    intro i j
    rw [mem_sweep]
    simp
  exact this.mono (fun i j _ _ => e i j) (fun i j _ _ => e i j) (fun i j _ _ => e i j)

end

end SMB
end Pico
