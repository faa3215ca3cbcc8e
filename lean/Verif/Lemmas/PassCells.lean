import Verif.Lemmas.Events

/-! What an overlay pass leaves in the cells of the domains, whatever they and their overlays held before. -/

set_option linter.unusedSimpArgs false
set_option linter.unusedVariables false
set_option linter.unusedSectionVars false

namespace Pico
namespace SMB

variable {T : Type _} [AddCommMonoid T]

/-- Value of a logical cell after the pass: the copies of all domains that hold it, but for the two antidiagonal ones. -/
def gathered (os : Nat) (xs ys : Nat → Nat) (nr nz n : Nat) (m : DLoc → T) (i j r c : Nat) : T :=
  m (i, j, r, c) +
  (((if i + 1 < nr ∧ xs i ≤ r then m (i+1, j, r - xs i, c) else 0) + if 0 < i ∧ r < 2*os then m (i-1, j, xs (i-1) + r, c) else 0) +
   ((if j + 1 < nz ∧ ys j ≤ c then m (i, j+1, r, c - ys j) else 0) + if 0 < j ∧ c < 2*os then m (i, j-1, r, ys (j-1) + c) else 0) +
   ((if (i + 1 < nr ∧ j + 1 < nz) ∧ n ≤ r ∧ n ≤ c then m (i+1, j+1, r - n, c - n) else 0) +
    if (0 < i ∧ 0 < j) ∧ r < 2*os ∧ c < 2*os then m (i-1, j-1, n + r, n + c) else 0))

theorem sum_two {α : Type _} [DecidableEq α] (l : List α) (nd : l.Nodup) (q q' : α) (v v' : T) (f : α → T)
    (h : ∀ p ∈ l, f p = (if p = q then v else 0) + if p = q' then v' else 0) :
    (l.map f).sum = (if q ∈ l then v else 0) + if q' ∈ l then v' else 0 := by
  rw [List.map_congr_left h, ← sum_one l nd q v, ← sum_one l nd q' v']
  clear h
  induction l with
  | nil => simp
  | cons a l ih =>
    simp only [List.map_cons, List.sum_cons]
    rw [ih (List.nodup_cons.mp nd).2]
    ac_rfl

theorem pass_cells (os : Nat) (xs ys : Nat → Nat) (nr nz : Nat) (G : Good nr nz xs ys) (hxs : ∀ i, i < nr → os ≤ xs i)
    (hys : ∀ j, j < nz → os ≤ ys j) (l : List (Nat × Nat)) (nd : l.Nodup) (hl : ∀ p, p ∈ l ↔ p.1 < nr ∧ p.2 < nz)
    (m : DLoc → T) (i j r c : Nat) (hi : i < nr) (hj : j < nz)
    (h1 : os ≤ r ∧ r < xs i + os) (h2 : os ≤ c ∧ c < ys j + os) :
    (l.foldl (stAt os xs ys nr nz) m) (i, j, r, c) = gathered os xs ys nr nz (xs 0) m i j r c := by
  have hn : ∀ i j, i + 1 < nr → j + 1 < nz → xs i = xs 0 ∧ ys j = xs 0 := by
    intro i j hi hj
    rcases G with g | g | g
    · omega
    · omega
    · exact ⟨g.1 i (by omega), g.2 j (by omega)⟩
  have hn' : (1 < nr ∧ 1 < nz) → xs i = xs 0 ∧ ys j = xs 0 := by
    intro h
    rcases G with g | g | g
    · omega
    · omega
    · exact ⟨g.1 i hi, g.2 j hj⟩
  have inS : ∀ e, e ∈ l.flatMap (evAt nr nz) → ∃ p ∈ sweep nr nz, e ∈ evAt nr nz p := by
    intro e he
    obtain ⟨p, hp, he⟩ := List.mem_flatMap.mp he
    exact ⟨p, mem_sweep.mpr ((hl p).mp hp), he⟩
  rw [foldl_events, foldl_addFrom, sum_events]
  · unfold gathered
    have X : ∀ u v : Nat, u = v → xs u = xs v := fun u v h => by rw [h]
    have Y : ∀ u v : Nat, u = v → ys u = ys v := fun u v h => by rw [h]
    congr 1
    congr 1
    · congr 1
      · rw [sum_two l nd (i, j) (i - 1, j) (if i + 1 < nr ∧ xs i ≤ r then m (i+1, j, r - xs i, c) else 0)
          (if 0 < i ∧ r < 2*os then m (i-1, j, xs (i-1) + r, c) else 0), if_pos ((hl _).mpr ⟨hi, hj⟩),
          if_pos ((hl _).mpr ⟨by dsimp only; omega, hj⟩)]
        rintro ⟨a, b⟩ hp
        have hp := (hl _).mp hp
        dsimp only at hp ⊢
        dsimp only [partner]
        have e1 := X i a
        have e2 := X (i-1) a
        simp only [Prod.mk.injEq]
        by_cases q : a = i ∧ b = j
        · obtain ⟨rfl, rfl⟩ := q
          rw [if_pos (show a = a ∧ b = b from ⟨rfl, rfl⟩)]
          by_cases q : a + 1 < nr
          · rw [if_pos (show a + 1 < nr from q), if_pos (show b = b ∧ _ ∧ _ from ⟨rfl, h2⟩)]
            by_cases q' : xs a ≤ r
            · rw [if_pos (show a = a ∧ _ ∧ _ from ⟨rfl, q', by omega⟩), if_pos ⟨q, q'⟩]
              have : (if a = a - 1 ∧ b = b then (if 0 < a ∧ r < 2*os then m (a-1, b, xs (a-1) + r, c) else 0) else 0) = 0 := by
                split_ifs
                · omega
                · rfl
                · rfl
              rw [this, add_zero]
              rfl
            · rw [if_neg (show ¬ (a = a ∧ _ ∧ _) from fun k => q' k.2.1), if_neg (show ¬ (a = a + 1 ∧ _) from fun k => by omega),
                if_neg (show ¬ (a + 1 < nr ∧ _) from fun k => q' k.2)]
              have : (if a = a - 1 ∧ b = b then (if 0 < a ∧ r < 2*os then m (a-1, b, xs (a-1) + r, c) else 0) else 0) = 0 := by
                split_ifs
                · omega
                · rfl
                · rfl
              rw [this, add_zero]
              rfl
          · rw [if_neg q, if_neg (show ¬ (a + 1 < nr ∧ _) from fun k => q k.1)]
            have : (if a = a - 1 ∧ b = b then (if 0 < a ∧ r < 2*os then m (a-1, b, xs (a-1) + r, c) else 0) else 0) = 0 := by
              split_ifs
              · omega
              · rfl
              · rfl
            rw [this, add_zero]
        · rw [if_neg q, zero_add]
          by_cases q2 : (a = i - 1 ∧ b = j) ∧ 0 < i ∧ r < 2*os
          · obtain ⟨⟨rfl, rfl⟩, q3, q4⟩ := q2
            rw [if_pos (show i - 1 = i - 1 ∧ b = b from ⟨rfl, rfl⟩), if_pos (show 0 < i ∧ _ from ⟨q3, q4⟩), if_pos (by omega : i - 1 + 1 < nr), if_pos (show b = b ∧ _ from ⟨rfl, h2⟩),
              if_neg (show ¬ (i = i - 1 ∧ _) from fun k => by omega), if_pos ⟨by omega, q4⟩]
            rfl
          · have : (if a = i - 1 ∧ b = j then (if 0 < i ∧ r < 2*os then m (i-1, j, xs (i-1) + r, c) else 0) else 0) = 0 := by
              split_ifs with z1 z2
              · exact absurd ⟨z1, z2⟩ q2
              · rfl
              · rfl
            rw [this]
            split_ifs <;> (first | rfl | (exfalso; omega))
      · rw [sum_two l nd (i, j) (i, j - 1) (if j + 1 < nz ∧ ys j ≤ c then m (i, j+1, r, c - ys j) else 0)
          (if 0 < j ∧ c < 2*os then m (i, j-1, r, ys (j-1) + c) else 0), if_pos ((hl _).mpr ⟨hi, hj⟩),
          if_pos ((hl _).mpr ⟨hi, by dsimp only; omega⟩)]
        rintro ⟨a, b⟩ hp
        have hp := (hl _).mp hp
        dsimp only at hp ⊢
        dsimp only [partner]
        have e1 := Y j b
        have e2 := Y (j-1) b
        simp only [Prod.mk.injEq]
        by_cases q : a = i ∧ b = j
        · obtain ⟨rfl, rfl⟩ := q
          rw [if_pos (show a = a ∧ b = b from ⟨rfl, rfl⟩)]
          have : (if a = a ∧ b = b - 1 then (if 0 < b ∧ c < 2*os then m (a, b-1, r, ys (b-1) + c) else 0) else 0) = 0 := by
            split_ifs
            · omega
            · rfl
            · rfl
          rw [this, add_zero]
          by_cases q : b + 1 < nz
          · rw [if_pos q, if_pos (show a = a ∧ _ ∧ _ from ⟨rfl, h1⟩)]
            by_cases q' : ys b ≤ c
            · rw [if_pos (show b = b ∧ _ ∧ _ from ⟨rfl, q', by omega⟩), if_pos ⟨q, q'⟩]
              rfl
            · rw [if_neg (show ¬ (b = b ∧ _ ∧ _) from fun k => q' k.2.1), if_neg (show ¬ (b = b + 1 ∧ _) from fun k => by omega),
                if_neg (show ¬ (b + 1 < nz ∧ _) from fun k => q' k.2)]
              rfl
          · rw [if_neg q, if_neg (show ¬ (b + 1 < nz ∧ _) from fun k => q k.1)]
        · rw [if_neg q, zero_add]
          by_cases q2 : (a = i ∧ b = j - 1) ∧ 0 < j ∧ c < 2*os
          · obtain ⟨⟨rfl, rfl⟩, q3, q4⟩ := q2
            rw [if_pos (show a = a ∧ j - 1 = j - 1 from ⟨rfl, rfl⟩), if_pos (show 0 < j ∧ _ from ⟨q3, q4⟩), if_pos (by omega : j - 1 + 1 < nz), if_pos (show a = a ∧ _ from ⟨rfl, h1⟩),
              if_neg (show ¬ (j = j - 1 ∧ _) from fun k => by omega), if_pos ⟨by omega, q4⟩]
            rfl
          · have : (if a = i ∧ b = j - 1 then (if 0 < j ∧ c < 2*os then m (i, j-1, r, ys (j-1) + c) else 0) else 0) = 0 := by
              split_ifs with z1 z2
              · exact absurd ⟨z1, z2⟩ q2
              · rfl
              · rfl
            rw [this]
            split_ifs <;> (first | rfl | (exfalso; omega))
    · rw [sum_two l nd (i, j) (i - 1, j - 1) (if (i + 1 < nr ∧ j + 1 < nz) ∧ xs 0 ≤ r ∧ xs 0 ≤ c then m (i+1, j+1, r - xs 0, c - xs 0) else 0)
        (if (0 < i ∧ 0 < j) ∧ r < 2*os ∧ c < 2*os then m (i-1, j-1, xs 0 + r, xs 0 + c) else 0), if_pos ((hl _).mpr ⟨hi, hj⟩),
        if_pos ((hl _).mpr ⟨by dsimp only; omega, by dsimp only; omega⟩)]
      rintro ⟨a, b⟩ hp
      have hp := (hl _).mp hp
      dsimp only at hp ⊢
      dsimp only [partner]
      simp only [Prod.mk.injEq]
      by_cases q : a = i ∧ b = j
      · obtain ⟨rfl, rfl⟩ := q
        rw [if_pos (show a = a ∧ b = b from ⟨rfl, rfl⟩)]
        have : (if a = a - 1 ∧ b = b - 1 then (if (0 < a ∧ 0 < b) ∧ r < 2*os ∧ c < 2*os then m (a-1, b-1, xs 0 + r, xs 0 + c) else 0) else 0) = 0 := by
          split_ifs
          · omega
          · rfl
          · rfl
        rw [this, add_zero]
        split_ifs <;> (first | rfl | (exfalso; omega))
      · rw [if_neg q, zero_add]
        by_cases q2 : (a = i - 1 ∧ b = j - 1) ∧ (0 < i ∧ 0 < j) ∧ r < 2*os ∧ c < 2*os
        · obtain ⟨⟨rfl, rfl⟩, q3, q4⟩ := q2
          rw [if_pos (show i - 1 = i - 1 ∧ j - 1 = j - 1 from ⟨rfl, rfl⟩), if_pos (show (0 < i ∧ 0 < j) ∧ _ from ⟨q3, q4⟩), if_pos (show i - 1 + 1 < nr ∧ j - 1 + 1 < nz by omega),
            if_neg (show ¬ (i = i - 1 ∧ _) from fun k => by omega), if_pos ⟨by omega, by omega, Or.inr (by omega)⟩]
          rfl
        · have : (if a = i - 1 ∧ b = j - 1 then (if (0 < i ∧ 0 < j) ∧ r < 2*os ∧ c < 2*os then m (i-1, j-1, xs 0 + r, xs 0 + c) else 0) else 0) = 0 := by
            split_ifs with z1 z2
            · exact absurd ⟨z1, z2⟩ q2
            · rfl
            · rfl
          rw [this]
          split_ifs <;> (first | rfl | (exfalso; omega))
  · refine (List.Pairwise.and_mem.mp ((nodup_events nr nz l nd))).imp ?_
    rintro e f ⟨m1, m2, hne⟩ y hy
    exact partner_alone os xs ys nr nz (xs 0) hn hxs hys hi hj h1 h2 hne (inS e m1) (inS f m2) hy

end SMB
end Pico
