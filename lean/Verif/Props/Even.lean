import Verif.Spec.Even
import Verif.Props.Placement
import Verif.Props.Rand
import Mathlib.Data.Int.CardIntervalMod
import Mathlib.Data.Nat.ChineseRemainder

/-! Property C113: the default placement fills the domain evenly. -/

set_option linter.unusedSectionVars false
set_option linter.unusedSimpArgs false
set_option linter.unusedVariables false

namespace Pico
namespace Rand

/-- The first `a` digits behind the point of the value that belongs to `n`, as a number. -/
def bin (b : Nat) : Nat → Nat → Nat
  | 0, _ => 0
  | a + 1, n => b ^ a * (n % b) + bin b a (n / b)

theorem bin_lt {b : Nat} (hb : 2 ≤ b) (a n : Nat) : bin b a n < b ^ a := by
  induction a generalizing n with
  | zero => simp [bin]
  | succ a ih =>
    have h1 := ih (n / b)
    have h2 : n % b + 1 ≤ b := Nat.mod_lt _ (by omega)
    calc bin b (a + 1) n = b ^ a * (n % b) + bin b a (n / b) := rfl
      _ < b ^ a * (n % b) + b ^ a := by omega
      _ = b ^ a * (n % b + 1) := by ring
      _ ≤ b ^ a * b := Nat.mul_le_mul_left _ h2
      _ = b ^ (a + 1) := (pow_succ _ _).symm

section
variable {K : Type _} [Field K] [LinearOrder K] [IsStrictOrderedRing K] [FloorRing K]

theorem behind_step {b : Nat} (hb : 2 ≤ b) (n : Nat) :
    (behindPoint b (Nat.digits b n) : K) = (((n % b : Nat) : K) + behindPoint b (Nat.digits b (n / b))) / b := by
  rcases Nat.eq_zero_or_pos n with rfl | h
  · simp [behindPoint]
  · rw [Nat.digits_def' (by omega) h]
    rfl

theorem bin_spec {b : Nat} (hb : 2 ≤ b) (a n : Nat) :
    (bin b a n : K) ≤ (b : K) ^ a * behindPoint b (Nat.digits b n) ∧ (b : K) ^ a * behindPoint b (Nat.digits b n) < (bin b a n : K) + 1 := by
  have b0 : (b : K) ≠ 0 := by exact_mod_cast (by omega : b ≠ 0)
  induction a generalizing n with
  | zero =>
    have := behind_range (K := K) hb (Nat.digits b n) (fun d hd => Nat.digits_lt_base (by omega) hd)
    simpa [bin] using this
  | succ a ih =>
    obtain ⟨h1, h2⟩ := ih (n / b)
    have e : (b : K) ^ (a + 1) * behindPoint b (Nat.digits b n) =
        (b : K) ^ a * ((n % b : Nat) : K) + (b : K) ^ a * behindPoint b (Nat.digits b (n / b)) := by
      rw [behind_step hb n, pow_succ]
      field_simp
    have e2 : (bin b (a + 1) n : K) = (b : K) ^ a * ((n % b : Nat) : K) + (bin b a (n / b) : K) := by
      show ((b ^ a * (n % b) + bin b a (n / b) : Nat) : K) = _
      push_cast; rfl
    rw [e, e2]
    constructor <;> linarith
end

/-- Equal digits behind the point: equal numbers modulo a power of the base. -/
theorem bin_inj {b : Nat} (hb : 2 ≤ b) (a n m : Nat) : bin b a n = bin b a m ↔ n ≡ m [MOD b ^ a] := by
  induction a generalizing n m with
  | zero => simp [bin, Nat.modEq_one]
  | succ a ih =>
    have h1 := bin_lt hb a (n / b); have h2 := bin_lt hb a (m / b)
    have key : bin b (a + 1) n = bin b (a + 1) m ↔ n % b = m % b ∧ bin b a (n / b) = bin b a (m / b) := by
      constructor
      · intro h
        have h : b ^ a * (n % b) + bin b a (n / b) = b ^ a * (m % b) + bin b a (m / b) := h
        have q : (b ^ a * (n % b) + bin b a (n / b)) / b ^ a = (b ^ a * (m % b) + bin b a (m / b)) / b ^ a := by rw [h]
        have p0 : 0 < b ^ a := by positivity
        rw [Nat.mul_add_div p0, Nat.mul_add_div p0, Nat.div_eq_of_lt h1, Nat.div_eq_of_lt h2] at q
        refine ⟨by omega, ?_⟩
        rw [show n % b = m % b by omega] at h
        omega
      · rintro ⟨e1, e2⟩
        show b ^ a * (n % b) + bin b a (n / b) = b ^ a * (m % b) + bin b a (m / b)
        rw [e1, e2]
    rw [key, ih]
    unfold Nat.ModEq
    rw [pow_succ, Nat.mul_comm, Nat.mod_mul, Nat.mod_mul]
    have l1 := Nat.mod_lt n (show 0 < b by omega); have l2 := Nat.mod_lt m (show 0 < b by omega)
    constructor
    · rintro ⟨e1, e2⟩; rw [e1, e2]
    · intro h
      have q : (n % b + b * (n / b % b ^ a)) % b = (m % b + b * (m / b % b ^ a)) % b := by rw [h]
      rw [Nat.add_mul_mod_self_left, Nat.add_mul_mod_self_left, Nat.mod_mod, Nat.mod_mod] at q
      refine ⟨q, ?_⟩
      rw [q] at h
      exact Nat.eq_of_mul_eq_mul_left (show 0 < b by omega) (by omega)

/-- Every sequence of digits occurs. -/
theorem bin_surj {b : Nat} (hb : 2 ≤ b) (a : Nat) : ∀ s, s < b ^ a → ∃ n, bin b a n = s := by
  induction a with
  | zero => intro s hs; exact ⟨0, by simp at hs; simp [bin, hs]⟩
  | succ a ih =>
    intro s hs
    have p0 : 0 < b ^ a := by positivity
    obtain ⟨q, hq⟩ := ih (s % b ^ a) (Nat.mod_lt _ p0)
    have hd : s / b ^ a < b := by
      rw [Nat.div_lt_iff_lt_mul p0, Nat.mul_comm, ← pow_succ]; exact hs
    refine ⟨s / b ^ a + b * q, ?_⟩
    show b ^ a * ((s / b ^ a + b * q) % b) + bin b a ((s / b ^ a + b * q) / b) = s
    rw [Nat.add_mul_mod_self_left, Nat.mod_eq_of_lt hd, Nat.add_mul_div_left _ _ (by omega), Nat.div_eq_of_lt hd, Nat.zero_add, hq]
    exact Nat.div_add_mod s (b ^ a)

/-- In which of `b^a` equal parts of the unit interval the value of `n` lies. -/
theorem in_part {K : Type _} [Field K] [LinearOrder K] [IsStrictOrderedRing K] [FloorRing K] {b : Nat} (hb : 2 ≤ b) (a n s : Nat) :
    ((s : K) ≤ (b : K) ^ a * behindPoint b (Nat.digits b n) ∧ (b : K) ^ a * behindPoint b (Nat.digits b n) < (s : K) + 1) ↔ bin b a n = s := by
  obtain ⟨h1, h2⟩ := bin_spec (K := K) hb a n
  constructor
  · rintro ⟨h3, h4⟩
    have u1 : (bin b a n : K) < (s : K) + 1 := lt_of_le_of_lt h1 h4
    have u2 : (s : K) < (bin b a n : K) + 1 := lt_of_le_of_lt h3 h2
    have v1 : bin b a n < s + 1 := by exact_mod_cast u1
    have v2 : s < bin b a n + 1 := by exact_mod_cast u2
    omega
  · rintro rfl; exact ⟨h1, h2⟩

/-- **C113** for the generator: of any `b^a` consecutive sequence numbers exactly one has its value in a given one of `b^a` equal parts
of the unit interval. -/
theorem C113_sequence {K : Type _} [Field K] [LinearOrder K] [IsStrictOrderedRing K] [FloorRing K] {b : Nat} (hb : 2 ≤ b) (a m s : Nat)
    (hs : s < b ^ a) (hm : m + b ^ a < 2 ^ 31) :
    ∃! n : Nat, (m ≤ n ∧ n < m + b ^ a) ∧ ∃ x : K, RandomReverse (n : K) b x ∧ (s : K) / (b : K) ^ a ≤ x ∧ x < ((s : K) + 1) / (b : K) ^ a := by
  have p0 : 0 < b ^ a := by positivity
  have p1 : (0 : K) < (b : K) ^ a := by exact_mod_cast p0
  have key : ∀ n : Nat, n < 2 ^ 31 → ((∃ x : K, RandomReverse (n : K) b x ∧ (s : K) / (b : K) ^ a ≤ x ∧ x < ((s : K) + 1) / (b : K) ^ a) ↔ bin b a n = s) := by
    intro n hn
    rw [← in_part (K := K) hb]
    obtain ⟨v1, v2, _⟩ := C33_value (K := K) hb n hn
    constructor
    · rintro ⟨x, hx, h1, h2⟩
      rw [v2 x hx] at h1 h2
      rw [div_le_iff₀ p1] at h1
      rw [lt_div_iff₀ p1] at h2
      exact ⟨by linarith, by linarith⟩
    · rintro ⟨h1, h2⟩
      exact ⟨_, v1, by rw [div_le_iff₀ p1]; linarith, by rw [lt_div_iff₀ p1]; linarith⟩
  obtain ⟨c, hc⟩ := bin_surj hb a s hs
  -- the representative of the class of `c` in the range
  refine ⟨m + (c + (b ^ a - m % b ^ a)) % b ^ a, ⟨⟨Nat.le_add_right _ _, by have := Nat.mod_lt (c + (b ^ a - m % b ^ a)) p0; omega⟩, ?_⟩, ?_⟩
  · have l := Nat.mod_lt (c + (b ^ a - m % b ^ a)) p0
    rw [key _ (by omega), ← hc, bin_inj hb]
    have lm := Nat.mod_lt m p0
    have e1 : m + (c + (b ^ a - m % b ^ a)) % b ^ a ≡ m + (c + (b ^ a - m % b ^ a)) [MOD b ^ a] := (Nat.mod_modEq _ _).add_left _
    have e2 : m + (c + (b ^ a - m % b ^ a)) = c + b ^ a * (m / b ^ a + 1) := by
      have := Nat.div_add_mod m (b ^ a)
      rw [Nat.mul_add]; omega
    refine e1.trans ?_
    rw [e2]
    show _ % _ = _ % _
    rw [Nat.add_mul_mod_self_left]
  · rintro n ⟨⟨h1, h2⟩, hx⟩
    have l := Nat.mod_lt (c + (b ^ a - m % b ^ a)) p0
    have lm := Nat.mod_lt m p0
    have e0 : n ≡ c [MOD b ^ a] := by
      rw [← bin_inj hb, hc]; exact (key n (by omega)).mp hx
    have e1 : m + (c + (b ^ a - m % b ^ a)) % b ^ a ≡ m + (c + (b ^ a - m % b ^ a)) [MOD b ^ a] := (Nat.mod_modEq _ _).add_left _
    have e2 : m + (c + (b ^ a - m % b ^ a)) = c + b ^ a * (m / b ^ a + 1) := by
      have := Nat.div_add_mod m (b ^ a)
      rw [Nat.mul_add]; omega
    have e3 : m + (c + (b ^ a - m % b ^ a)) % b ^ a ≡ c [MOD b ^ a] := by
      refine e1.trans ?_
      rw [e2]
      show _ % _ = _ % _
      rw [Nat.add_mul_mod_self_left]
    have e4 := e0.trans e3.symm
    generalize (c + (b ^ a - m % b ^ a)) % b ^ a = d at *
    obtain ⟨f, rfl⟩ : ∃ f, n = m + f := ⟨n - m, by omega⟩
    have := Nat.ModEq.add_left_cancel' m e4
    unfold Nat.ModEq at this
    rw [Nat.mod_eq_of_lt (by omega), Nat.mod_eq_of_lt l] at this
    omega

end Rand
end Pico

namespace Pico
namespace Place

open _root_.Pico.Part

/-- Replacing a zero by a small number does not leave the first part. -/
theorem part_zero {A m u : ℝ} (hm : 0 < m) (hA : 0 ≤ A) (h : A * m < 1) (s : Nat) :
    ((s : ℝ) ≤ A * (if u = 0 then m else u) ∧ A * (if u = 0 then m else u) < (s : ℝ) + 1) ↔ ((s : ℝ) ≤ A * u ∧ A * u < (s : ℝ) + 1) := by
  split
  · next h0 =>
    rw [h0, mul_zero]
    have q : 0 ≤ A * m := mul_nonneg hA hm.le
    rcases Nat.eq_zero_or_pos s with rfl | hs
    · simp [q, h]
    · have : (1 : ℝ) ≤ s := by exact_mod_cast hs
      constructor
      · rintro ⟨a, _⟩; linarith
      · rintro ⟨a, _⟩; linarith
  · exact Iff.rfl

section
variable {mnzl : ℝ} {g : Geom ℝ} (G : g.Good) (w : Walls)
include G

theorem rSize_whole : rSize g w (whole g) = placeR g w := by
  unfold rSize placeR; rw [whole_sizes_r (by have := G.nr; omega)]; dsimp only; split <;> ring

theorem zSize_whole : zSize g w (whole g) = placeZ g w := by
  unfold zSize placeZ; rw [whole_sizes (by have := G.nz; omega)]; dsimp only; split <;> ring

/-- In which box a particle stands, from its two numbers. -/
theorem box_iff (hm : 0 < mnzl) (hR : 0 < placeR g w) (hZ : 0 < placeZ g w) {d0 d1 : ℝ} (h0 : 0 ≤ d0) (h1 : 0 ≤ d1) (hd : 0 < d0 + d1)
    (id : Nat) {ur uz : ℝ} (ur0 : 0 ≤ ur) (uz0 : 0 ≤ uz ∧ uz < 1) {A B : Nat} (hA : A * mnzl < 1) (hB : B * mnzl < 1) (hm1 : mnzl < 1) (s t : Nat) :
    InBox g w d0 d1 A B s t (randomOne id mnzl g w (whole g) d0 d1 ur uz) ↔
      ((s : ℝ) ≤ A * ur ∧ A * ur < (s : ℝ) + 1) ∧ ((t : ℝ) ≤ B * uz ∧ B * uz < (t : ℝ) + 1) := by
  set uz' := (if uz = 0 then mnzl else uz) with hu
  have u0 : 0 < uz' := by
    rw [hu]; split
    · exact hm
    · next h => exact lt_of_le_of_ne uz0.1 (Ne.symm h)
  have u1 : uz' < 1 := by rw [hu]; split; exact hm1; exact uz0.2
  have same : randomOne id mnzl g w (whole g) d0 d1 ur uz = randomOne id mnzl g w (whole g) d0 d1 ur uz' := by
    unfold randomOne
    dsimp only
    rw [← hu, if_neg u0.ne']
  have pr := C32_profile (mnzl := mnzl) w (whole g) (by rw [zSize_whole G]; exact hZ) d0 d1 h0 h1 id ur uz' u0 u1
  dsimp only at pr
  rw [zSize_whole G] at pr
  have x : (randomOne id mnzl g w (whole g) d0 d1 ur uz').posR - (g.r0 + 1 / 2) * g.dr = placeR g w * (if ur = 0 then mnzl else ur) := by
    unfold randomOne newPart shiftR
    dsimp only
    rw [rSize_whole G]
    show _ + (g.r0 : ℝ) * g.dr + _ - _ = _
    ring
  unfold InBox
  dsimp only
  rw [same, x]
  have y : content d0 d1 (placeZ g w) ((randomOne id mnzl g w (whole g) d0 d1 ur uz').posZ - (g.z0 + 1 / 2) * g.dz) =
      uz' * ((d0 + d1) / 2 * placeZ g w) := pr
  have tot : content d0 d1 (placeZ g w) (placeZ g w) = (d0 + d1) / 2 * placeZ g w := by
    unfold content; field_simp; ring
  rw [y, tot]
  have q : 0 < (d0 + d1) / 2 * placeZ g w := by positivity
  have e1 : (A : ℝ) * (placeR g w * (if ur = 0 then mnzl else ur)) = (A * (if ur = 0 then mnzl else ur)) * placeR g w := by ring
  have e2 : (B : ℝ) * (uz' * ((d0 + d1) / 2 * placeZ g w)) = (B * uz') * ((d0 + d1) / 2 * placeZ g w) := by ring
  rw [e1, e2, mul_le_mul_iff_left₀ hR, mul_lt_mul_iff_left₀ hR, mul_le_mul_iff_left₀ q, mul_lt_mul_iff_left₀ q, hu,
    part_zero hm (by positivity) hA, part_zero hm (by positivity) hB]

open Classical in
/-- **C113**: the default placement fills a domain evenly: for every division of the place for particles into `13^a` slices of equal radial
size and `11^b` axial slices of equal content, the numbers of particles of a species in the boxes differ by at most one; each is the number
of particles divided by the number of boxes, rounded down or up. -/
theorem C113_even (hm : 0 < mnzl) (hR : 0 < placeR g w) (hZ : 0 < placeZ g w) {d0 d1 : ℝ} (h0 : 0 ≤ d0) (h1 : 0 ≤ d1) (hd : 0 < d0 + d1)
    (id amount : Nat) (hn : amount < 2 ^ 31) {ur uz : Nat → ℝ} (hf : FlatNumbers amount ur uz) (a b : Nat)
    (hA : 13 ^ a * mnzl < 1) (hB : 11 ^ b * mnzl < 1) (s t : Nat) (hs : s < 13 ^ a) (ht : t < 11 ^ b) :
    let n := ((random id mnzl g w (whole g) d0 d1 amount ur uz).filter fun p => InBox g w d0 d1 (13 ^ a) (11 ^ b) s t p).length
    n = amount / (13 ^ a * 11 ^ b) ∨ n = amount / (13 ^ a * 11 ^ b) + 1 ∧ ¬ 13 ^ a * 11 ^ b ∣ amount := by
  intro n
  have hm1 : mnzl < 1 := by
    have : (1 : ℝ) ≤ 13 ^ a := one_le_pow₀ (by norm_num)
    nlinarith
  obtain ⟨c, hc⟩ := Rand.bin_surj (b := 13) (by norm_num) a s hs
  obtain ⟨d, hd'⟩ := Rand.bin_surj (b := 11) (by norm_num) b t ht
  have pA : 0 < 13 ^ a := by positivity
  have pB : 0 < 11 ^ b := by positivity
  have cop : Nat.Coprime (13 ^ a) (11 ^ b) := Nat.Coprime.pow _ _ (by norm_num)
  obtain ⟨v, hv1, hv2⟩ := Nat.chineseRemainder cop c (amount - 1 + (11 ^ b - 1) * d)
  have each : ∀ i, i < amount → (InBox g w d0 d1 (13 ^ a) (11 ^ b) s t (randomOne id mnzl g w (whole g) d0 d1 (ur i) (uz i)) ↔
      i ≡ v [MOD 13 ^ a * 11 ^ b]) := by
    intro i hi
    have e1 := (Rand.C33_value (K := ℝ) (b := 13) (by norm_num) i (by omega)).2.1 _ (by exact_mod_cast (hf i hi).1)
    have e2 := (Rand.C33_value (K := ℝ) (b := 11) (by norm_num) (amount - 1 - i) (by omega)).2.1 _ (by exact_mod_cast (hf i hi).2)
    have r1 := (Rand.C33_value (K := ℝ) (b := 13) (by norm_num) i (by omega)).2.2
    have r2 := (Rand.C33_value (K := ℝ) (b := 11) (by norm_num) (amount - 1 - i) (by omega)).2.2
    rw [e1, e2, box_iff G w hm hR hZ h0 h1 hd id r1.1 r2 (by push_cast; exact hA) (by push_cast; exact hB) hm1]
    have q1 := Rand.in_part (K := ℝ) (b := 13) (by norm_num) a i s
    have q2 := Rand.in_part (K := ℝ) (b := 11) (by norm_num) b (amount - 1 - i) t
    push_cast at q1 q2 ⊢
    rw [q1, q2, ← hc, ← hd', Rand.bin_inj (by norm_num), Rand.bin_inj (by norm_num), ← Nat.modEq_and_modEq_iff_modEq_mul cop]
    have e3 : amount - 1 - i ≡ d [MOD 11 ^ b] ↔ i ≡ amount - 1 + (11 ^ b - 1) * d [MOD 11 ^ b] := by
      obtain ⟨k, hk⟩ : ∃ k, amount - 1 = i + k := ⟨amount - 1 - i, by omega⟩
      obtain ⟨B', hB'⟩ : ∃ B', 11 ^ b = B' + 1 := ⟨11 ^ b - 1, by omega⟩
      rw [hk, Nat.add_sub_cancel_left, hB', Nat.add_sub_cancel]
      have z : d + B' * d ≡ 0 [MOD B' + 1] := (Nat.modEq_zero_iff_dvd.mpr ⟨d, by ring⟩)
      constructor
      · intro h
        have := ((h.add_right (B' * d)).trans z).add_left i
        rw [← add_assoc, add_zero] at this
        exact this.symm
      · intro h
        have h' : i + 0 ≡ i + (k + B' * d) [MOD B' + 1] := by rw [add_zero, ← add_assoc]; exact h
        have := (Nat.ModEq.add_left_cancel' i h').symm
        exact Nat.ModEq.add_right_cancel' (B' * d) (this.trans z.symm)
    rw [e3]
    constructor
    · rintro ⟨f1, f2⟩; exact ⟨f1.trans hv1.symm, f2.trans hv2.symm⟩
    · rintro ⟨f1, f2⟩; exact ⟨f1.trans hv1, f2.trans hv2⟩
  have cnt : n = amount.count (· ≡ v [MOD 13 ^ a * 11 ^ b]) := by
    show (List.filter _ _).length = _
    unfold random
    rw [← List.countP_eq_length_filter, List.countP_map]
    unfold Nat.count
    apply List.countP_congr
    intro i hi
    have := each i (List.mem_range.mp hi)
    simpa using this
  rw [cnt, Nat.count_modEq_card _ (by positivity)]
  split
  · next h => exact Or.inr ⟨rfl, fun q => by rw [Nat.mod_eq_zero_of_dvd q] at h; omega⟩
  · exact Or.inl rfl
end

/-! ### Concrete cases -/

/-- Thirteen consecutive numbers from 5 on: exactly one in the last of thirteen parts. -/
example := Rand.C113_sequence (K := ℚ) (b := 13) (by norm_num) 1 5 12 (by norm_num) (by norm_num)

/-- A domain of ten by twenty cells at the axis and the outer wall. -/
def exDom : Geom ℝ := ⟨1, 1, 0, 0, 10, 20⟩
def exWalls : Walls := ⟨true, false, true, false⟩

open Classical in
/-- A density growing from one to three, 100000 particles, boxes of a thirteenth of the radius and 1/121 of the content: 63 or 64
particles in each. -/
example : ∃ ur uz : Nat → ℝ, FlatNumbers 100000 ur uz ∧ ∀ s t, s < 13 ^ 1 → t < 11 ^ 2 →
    ((random 7 (1/1000000000000000) exDom exWalls (whole exDom) 1 3 100000 ur uz).filter fun p =>
        InBox exDom exWalls 1 3 (13 ^ 1) (11 ^ 2) s t p).length ∈ [63, 64] := by
  obtain ⟨ur, uz, hf, _⟩ := flat_numbers 100000 (by norm_num)
  refine ⟨ur, uz, hf, fun s t hs ht => ?_⟩
  have := C113_even (g := exDom) (mnzl := 1/1000000000000000) ⟨by norm_num [exDom], by norm_num [exDom], by norm_num [exDom], by norm_num [exDom]⟩ exWalls (by norm_num)
    (by norm_num [placeR, exDom, exWalls]) (by norm_num [placeZ, exDom, exWalls]) (d0 := 1) (d1 := 3) (by norm_num) (by norm_num) (by norm_num) 7 100000 (by norm_num) hf
    1 2 (by norm_num) (by norm_num) s t hs ht
  rcases this with h | ⟨h, _⟩
  · rw [h]; decide
  · rw [h]; decide

end Place
end Pico
