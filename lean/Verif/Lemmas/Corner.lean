import Verif.Lemmas.SMB

/-! The corner where four equal square domains meet. -/

set_option linter.unusedSimpArgs false
set_option linter.unusedVariables false
set_option linter.unusedSectionVars false

namespace Pico
namespace SMB

variable {T : Type _}

theorem sweep22 : sweep 2 2 = [(0, 0), (0, 1), (1, 0), (1, 1)] := by decide

theorem stX_app [Add T] (os : Nat) (xs ys : Nat → Nat) (i j : Nat) (m : DLoc → T) (a b r c : Nat) :
    stX os xs ys i j m (a, b, r, c) =
    if b = j ∧ os ≤ c ∧ c < ys j + os then
      if a = i ∧ xs i ≤ r ∧ r < xs i + 2*os then
        m (i, j, r, c) + m (i+1, j, r - xs i, c)
      else if a = i + 1 ∧ r < 2*os then
        m (i, j, xs i + r, c) + m (i+1, j, r, c)
      else m (a, b, r, c)
    else m (a, b, r, c) := rfl

theorem stY_app [Add T] (os : Nat) (xs ys : Nat → Nat) (i j : Nat) (m : DLoc → T) (a b r c : Nat) :
    stY os xs ys i j m (a, b, r, c) =
    if a = i ∧ os ≤ r ∧ r < xs i + os then
      if b = j ∧ ys j ≤ c ∧ c < ys j + 2*os then
        m (i, j, r, c) + m (i, j+1, r, c - ys j)
      else if b = j + 1 ∧ c < 2*os then
        m (i, j, r, ys j + c) + m (i, j+1, r, c)
      else m (a, b, r, c)
    else m (a, b, r, c) := rfl

theorem stXY_app [Add T] (os n : Nat) (i j : Nat) (m : DLoc → T) (a b r c : Nat) :
    stXY os n i j m (a, b, r, c) =
    if a = i ∧ b = j ∧
        ((n ≤ r ∧ r < n + os ∧ n ≤ c ∧ c < n + os) ∨
         (n + os ≤ r ∧ r < n + 2*os ∧ n + os ≤ c ∧ c < n + 2*os)) then
      m (a, b, r, c) + m (i+1, j+1, r - n, c - n)
    else if a = i + 1 ∧ b = j + 1 ∧
        ((r < os ∧ c < os) ∨
         (os ≤ r ∧ r < 2*os ∧ os ≤ c ∧ c < 2*os)) then
      m (i, j, n + r, n + c) + m (a, b, r, c)
    else m (a, b, r, c) := rfl

theorem fold22 [Add T] (os n : Nat) (m : DLoc → T) :
    (sweep 2 2).foldl (stAt os (fun _ => n) (fun _ => n) 2 2) m =
      stY os (fun _ => n) (fun _ => n) 1 0 (stX os (fun _ => n) (fun _ => n) 0 1
        (stXY os n 0 0 (stY os (fun _ => n) (fun _ => n) 0 0
          (stX os (fun _ => n) (fun _ => n) 0 0 m)))) := by
  rw [sweep22]
  rfl

/-- The four copies of one node at the corner. -/
def quad (n p q : Nat) (m : DLoc → T) : T × T × T × T :=
  (m (0, 0, n + p, n + q), m (0, 1, n + p, q), m (1, 0, p, n + q), m (1, 1, p, q))

section
variable [Add T] (os n p q : Nat) (hn : 2 * os ≤ n) (hp : p < 2 * os) (hq : q < 2 * os) (m : DLoc → T)
include hn hp hq

theorem quad_stX0 : quad n p q (stX os (fun _ => n) (fun _ => n) 0 0 m) =
    ((if q < os then (quad n p q m).1 + (quad n p q m).2.2.1 else (quad n p q m).1),
     (quad n p q m).2.1,
     (if q < os then (quad n p q m).1 + (quad n p q m).2.2.1 else (quad n p q m).2.2.1),
     (quad n p q m).2.2.2) := by
  by_cases h : q < os
  · rw [if_pos h, if_pos h]
    unfold quad
    refine Prod.ext ?_ (Prod.ext ?_ (Prod.ext ?_ ?_)) <;> dsimp only <;> rw [stX_app] <;> try rw [Nat.add_sub_cancel_left]
    · rw [if_pos (by omega), if_pos (by omega)]
    · rw [if_neg (by omega)]
    · rw [if_pos (by omega), if_neg (by omega), if_pos (by omega)]
    · rw [if_neg (by omega)]
  · rw [if_neg h, if_neg h]
    unfold quad
    refine Prod.ext ?_ (Prod.ext ?_ (Prod.ext ?_ ?_)) <;> dsimp only <;> rw [stX_app] <;> try rw [Nat.add_sub_cancel_left]
    all_goals rw [if_neg (by omega)]

theorem quad_stY0 : quad n p q (stY os (fun _ => n) (fun _ => n) 0 0 m) =
    ((if p < os then (quad n p q m).1 + (quad n p q m).2.1 else (quad n p q m).1),
     (if p < os then (quad n p q m).1 + (quad n p q m).2.1 else (quad n p q m).2.1),
     (quad n p q m).2.2.1,
     (quad n p q m).2.2.2) := by
  by_cases h : p < os
  · rw [if_pos h, if_pos h]
    unfold quad
    refine Prod.ext ?_ (Prod.ext ?_ (Prod.ext ?_ ?_)) <;> dsimp only <;> rw [stY_app] <;> try rw [Nat.add_sub_cancel_left]
    · rw [if_pos (by omega), if_pos (by omega)]
    · rw [if_pos (by omega), if_neg (by omega), if_pos (by omega)]
    · rw [if_neg (by omega)]
    · rw [if_neg (by omega)]
  · rw [if_neg h, if_neg h]
    unfold quad
    refine Prod.ext ?_ (Prod.ext ?_ (Prod.ext ?_ ?_)) <;> dsimp only <;> rw [stY_app] <;> try rw [Nat.add_sub_cancel_left]
    all_goals rw [if_neg (by omega)]

theorem quad_stXY0 : quad n p q (stXY os n 0 0 m) =
    ((if (p < os ↔ q < os) then (quad n p q m).1 + (quad n p q m).2.2.2 else (quad n p q m).1),
     (quad n p q m).2.1,
     (quad n p q m).2.2.1,
     (if (p < os ↔ q < os) then (quad n p q m).1 + (quad n p q m).2.2.2
      else (quad n p q m).2.2.2)) := by
  by_cases h : (p < os ↔ q < os)
  · rw [if_pos h, if_pos h]
    unfold quad
    refine Prod.ext ?_ (Prod.ext ?_ (Prod.ext ?_ ?_)) <;> dsimp only <;> rw [stXY_app] <;> try rw [Nat.add_sub_cancel_left]
    · rw [if_pos (by omega), Nat.add_sub_cancel_left]
    · rw [if_neg (by omega), if_neg (by omega)]
    · rw [if_neg (by omega), if_neg (by omega)]
    · rw [if_neg (by omega), if_pos (by omega)]
  · rw [if_neg h, if_neg h]
    unfold quad
    refine Prod.ext ?_ (Prod.ext ?_ (Prod.ext ?_ ?_)) <;> dsimp only <;> rw [stXY_app] <;> try rw [Nat.add_sub_cancel_left]
    all_goals rw [if_neg (by omega), if_neg (by omega)]

theorem quad_stX1 : quad n p q (stX os (fun _ => n) (fun _ => n) 0 1 m) =
    ((quad n p q m).1,
     (if q < os then (quad n p q m).2.1 else (quad n p q m).2.1 + (quad n p q m).2.2.2),
     (quad n p q m).2.2.1,
     (if q < os then (quad n p q m).2.2.2 else (quad n p q m).2.1 + (quad n p q m).2.2.2)) := by
  by_cases h : q < os
  · rw [if_pos h, if_pos h]
    unfold quad
    refine Prod.ext ?_ (Prod.ext ?_ (Prod.ext ?_ ?_)) <;> dsimp only <;> rw [stX_app] <;> try rw [Nat.add_sub_cancel_left]
    all_goals rw [if_neg (by omega)]
  · rw [if_neg h, if_neg h]
    unfold quad
    refine Prod.ext ?_ (Prod.ext ?_ (Prod.ext ?_ ?_)) <;> dsimp only <;> rw [stX_app] <;> try rw [Nat.add_sub_cancel_left]
    · rw [if_neg (by omega)]
    · rw [if_pos (by omega), if_pos (by omega)]
    · rw [if_neg (by omega)]
    · rw [if_pos (by omega), if_neg (by omega), if_pos (by omega)]

theorem quad_stY1 : quad n p q (stY os (fun _ => n) (fun _ => n) 1 0 m) =
    ((quad n p q m).1,
     (quad n p q m).2.1,
     (if p < os then (quad n p q m).2.2.1 else (quad n p q m).2.2.1 + (quad n p q m).2.2.2),
     (if p < os then (quad n p q m).2.2.2 else (quad n p q m).2.2.1 + (quad n p q m).2.2.2)) := by
  by_cases h : p < os
  · rw [if_pos h, if_pos h]
    unfold quad
    refine Prod.ext ?_ (Prod.ext ?_ (Prod.ext ?_ ?_)) <;> dsimp only <;> rw [stY_app] <;> try rw [Nat.add_sub_cancel_left]
    all_goals rw [if_neg (by omega)]
  · rw [if_neg h, if_neg h]
    unfold quad
    refine Prod.ext ?_ (Prod.ext ?_ (Prod.ext ?_ ?_)) <;> dsimp only <;> rw [stY_app] <;> try rw [Nat.add_sub_cancel_left]
    · rw [if_neg (by omega)]
    · rw [if_neg (by omega)]
    · rw [if_pos (by omega), if_pos (by omega)]
    · rw [if_pos (by omega), if_neg (by omega), if_pos (by omega)]

/-- What every copy of a node at the corner holds after the pass; `A`, `B`, `C`, `D`
are the contributions of domains `(0,0)`, `(0,1)`, `(1,0)`, `(1,1)`; `(p, q)` is the
position in the `2 o_s × 2 o_s` block around the corner. -/
theorem corner22 :
    quad n p q ((sweep 2 2).foldl (stAt os (fun _ => n) (fun _ => n) 2 2) m) =
      let A := (quad n p q m).1
      let B := (quad n p q m).2.1
      let C := (quad n p q m).2.2.1
      let D := (quad n p q m).2.2.2
      if p < os then
        if q < os then (A + C + B + D, A + C + B, A + C, A + C + B + D)
        else (A + B, A + B + D, C, A + B + D)
      else
        if q < os then (A + C, B, A + C + D, A + C + D)
        else (A + D, B + (A + D), C + (B + (A + D)), C + (B + (A + D))) := by
  rw [fold22, quad_stY1 os n p q hn hp hq, quad_stX1 os n p q hn hp hq, quad_stXY0 os n p q hn hp hq,
    quad_stY0 os n p q hn hp hq, quad_stX0 os n p q hn hp hq]
  by_cases h1 : p < os <;> by_cases h2 : q < os <;> simp [h1, h2]

end

end SMB
end Pico
