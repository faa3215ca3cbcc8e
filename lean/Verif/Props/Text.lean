import Verif.Model.Helpers
import Verif.Props.Placement
import Mathlib.Data.List.TakeWhile
import Mathlib.Tactic.Linarith

/-! # C50, C51: strings, command line, run time -/

set_option linter.unusedSimpArgs false
set_option linter.unusedVariables false
set_option linter.unusedSectionVars false

namespace Pico
namespace Help

/-! ### Specification -/

/-- The parts with the delimiter between them. -/
def joinWith (d : Char) : List (List Char) → List Char
  | [] => []
  | [p] => p
  | p :: q :: l => p ++ d :: joinWith d (q :: l)

/-- Neither the first nor the last character is the delimiter, and no two neighbours are. -/
def Clean (d : Char) (s : List Char) : Prop :=
  s.head? ≠ some d ∧ s.getLast? ≠ some d ∧ s.IsChain fun a b => ¬ (a = d ∧ b = d)

/-- A part: something without the delimiter. -/
def IsPart (d : Char) (p : List Char) : Prop := p ≠ [] ∧ d ∉ p

/-! ### Splitting -/

theorem splitRest_nil (d : Char) : splitRest d [] = [] := by
  rw [splitRest]
  simp

theorem splitRest_delim (d : Char) (s : List Char) : splitRest d (d :: s) = splitRest d s := by
  have h : (d :: s).dropWhile (· == d) = s.dropWhile (· == d) := by
    rw [List.dropWhile_cons_of_pos (by simp)]
  rw [splitRest, splitRest]
  split <;> rename_i e <;> rw [h] at e
  · split
    · rfl
    · rename_i e'
      rw [e] at e'
      cases e'
  · split
    · rename_i e'
      rw [e] at e'
      cases e'
    · rename_i e'
      rw [e] at e'
      cases e'
      rfl

theorem splitRest_cons (d c : Char) (t : List Char) (hc : c ≠ d) :
    splitRest d (c :: t) = (c :: t).takeWhile (· != d) :: splitRest d ((c :: t).dropWhile (· != d)) := by
  have h : (c :: t).dropWhile (· == d) = c :: t := by
    rw [List.dropWhile_cons_of_neg (by simpa using hc)]
  rw [splitRest]
  split <;> rename_i e <;> rw [h] at e
  · cases e
  · cases e
    rfl

/-- The rest after a part. -/
theorem splitRest_part (d : Char) (p rest : List Char) (hp : IsPart d p) (hr : rest = [] ∨ ∃ u, rest = d :: u) :
    splitRest d (p ++ rest) = p :: splitRest d rest := by
  obtain ⟨c, t, rfl⟩ := List.exists_cons_of_ne_nil hp.1
  have hc : c ≠ d := fun e => hp.2 (by rw [e]; exact List.mem_cons_self)
  have hall : ∀ x ∈ c :: t, (x != d) = true := by
    intro x hx
    have : x ≠ d := fun e => hp.2 (e ▸ hx)
    simpa using this
  have h1 : (c :: t ++ rest).takeWhile (· != d) = c :: t := by
    rw [List.takeWhile_append_of_pos hall]
    rcases hr with rfl | ⟨u, rfl⟩
    · simp
    · rw [List.takeWhile_cons_of_neg (by simp)]
      simp
  have h2 : (c :: t ++ rest).dropWhile (· != d) = rest := by
    rw [List.dropWhile_append_of_pos hall]
    rcases hr with rfl | ⟨u, rfl⟩
    · simp
    · rw [List.dropWhile_cons_of_neg (by simp)]
  have h3 := splitRest_cons d c (t ++ rest) hc
  rw [← List.cons_append, h1, h2] at h3
  exact h3

theorem splitRest_join (d : Char) (l : List (List Char)) (hl : ∀ p ∈ l, IsPart d p) : splitRest d (joinWith d l) = l := by
  induction l with
  | nil => exact splitRest_nil d
  | cons p l ih =>
    cases l with
    | nil =>
      have := splitRest_part d p [] (hl p List.mem_cons_self) (Or.inl rfl)
      rw [List.append_nil, splitRest_nil] at this
      exact this
    | cons q l =>
      have := splitRest_part d p (d :: joinWith d (q :: l)) (hl p List.mem_cons_self) (Or.inr ⟨_, rfl⟩)
      rw [splitRest_delim, ih (fun p hp => hl p (List.mem_cons_of_mem _ hp))] at this
      exact this

theorem splitRest_parts (d : Char) (s : List Char) : ∀ p ∈ splitRest d s, IsPart d p := by
  induction hn : s.length using Nat.strong_induction_on generalizing s with
  | _ n ih =>
    cases s with
    | nil => rw [splitRest_nil]; simp
    | cons c t =>
      by_cases hc : c = d
      · subst hc
        rw [splitRest_delim]
        exact ih t.length (by simp at hn; omega) t rfl
      · rw [splitRest_cons d c t hc]
        intro p hp
        rcases List.mem_cons.mp hp with rfl | hp
        · refine ⟨?_, ?_⟩
          · rw [List.takeWhile_cons_of_pos (by simpa using hc)]
            simp
          · intro hd
            have := List.mem_takeWhile_imp hd
            simp at this
        · refine ih _ ?_ _ rfl p hp
          rw [List.dropWhile_cons_of_pos (by simpa using hc)]
          have : (t.dropWhile (· != d)).length ≤ t.length := (List.dropWhile_suffix _).length_le
          simp at hn
          omega

theorem joinWith_ne (d : Char) (l : List (List Char)) (hl : ∀ p ∈ l, IsPart d p) (h : l ≠ []) : joinWith d l ≠ [] := by
  cases l with
  | nil => exact absurd rfl h
  | cons p l =>
    have := (hl p List.mem_cons_self).1
    cases l with
    | nil => exact this
    | cons q l => simp [joinWith]

theorem joinWith_clean (d : Char) (l : List (List Char)) (hl : ∀ p ∈ l, IsPart d p) : Clean d (joinWith d l) := by
  have hpart : ∀ p, IsPart d p → Clean d p := by
    intro p hp
    refine ⟨fun h => hp.2 (List.mem_of_mem_head? h), fun h => hp.2 (List.mem_of_mem_getLast? h), ?_⟩
    have : ∀ l : List Char, d ∉ l → l.IsChain fun a b => ¬ (a = d ∧ b = d) := by
      intro l
      induction l with
      | nil => intro _; exact .nil
      | cons a l ih =>
        intro h
        cases l with
        | nil => exact .singleton a
        | cons b l =>
          refine .cons_cons ?_ (ih fun hm => h (List.mem_cons_of_mem _ hm))
          rintro ⟨rfl, _⟩
          exact h List.mem_cons_self
    exact this p hp.2
  induction l with
  | nil => exact ⟨by simp [joinWith], by simp [joinWith], .nil⟩
  | cons p l ih =>
    have hp := hpart p (hl p List.mem_cons_self)
    have hpn := (hl p List.mem_cons_self).1
    cases l with
    | nil => exact hp
    | cons q l =>
      have ih' := ih (fun p hp => hl p (List.mem_cons_of_mem _ hp))
      have hne := joinWith_ne d (q :: l) (fun p hp => hl p (List.mem_cons_of_mem _ hp)) (by simp)
      refine ⟨?_, ?_, ?_⟩
      · show (p ++ d :: joinWith d (q :: l)).head? ≠ some d
        rw [List.head?_append_of_ne_nil _ hpn]
        exact hp.1
      · show (p ++ d :: joinWith d (q :: l)).getLast? ≠ some d
        rw [List.getLast?_append_of_ne_nil _ (by simp)]
        obtain ⟨c, t, e⟩ := List.exists_cons_of_ne_nil hne
        rw [e, List.getLast?_cons_cons, ← e]
        exact ih'.2.1
      · show (p ++ d :: joinWith d (q :: l)).IsChain _
        rw [List.isChain_append]
        refine ⟨hp.2.2, ?_, ?_⟩
        · obtain ⟨c, t, e⟩ := List.exists_cons_of_ne_nil hne
          have h1 := ih'.1
          have h2 := ih'.2.2
          rw [e] at h1 h2 ⊢
          refine .cons_cons ?_ h2
          rintro ⟨_, rfl⟩
          exact h1 rfl
        · rintro x hx y hy ⟨rfl, _⟩
          exact hp.2.1 hx

/-- **C50 (partial), splitting.**  For every string in which the delimiter is neither first nor last nor doubled, the parts
joined with the delimiter give the string back; the parts are not empty and contain no delimiter; parts found earlier
are kept in front.  Conversely joined parts are split into the same parts again.
Missing: all other strings, see `C50_split_fails`. -/
theorem C50_split_partial (d : Char) (s : List Char) (hs : Clean d s) (out : List (List Char)) :
    ∃ l, splitstr s d out = out ++ l ∧ joinWith d l = s ∧ (∀ p ∈ l, p ≠ [] ∧ d ∉ p) := by
  refine ⟨splitRest d s, rfl, ?_, splitRest_parts d s⟩
  induction hn : s.length using Nat.strong_induction_on generalizing s with
  | _ n ih =>
    cases s with
    | nil => rw [splitRest_nil]; rfl
    | cons c t =>
      have hc : c ≠ d := fun e => hs.1 (by rw [e]; rfl)
      rw [splitRest_cons d c t hc]
      have hcat := List.takeWhile_append_dropWhile (p := (· != d)) (l := c :: t)
      generalize hp : (c :: t).takeWhile (· != d) = p at *
      generalize hr : (c :: t).dropWhile (· != d) = r at *
      cases r with
      | nil =>
        rw [splitRest_nil]
        simpa [joinWith] using hcat
      | cons x u =>
        have hx : x = d := by
          have := List.head?_dropWhile_not (· != d) (c :: t)
          rw [hr] at this
          simpa using this
        subst hx
        rw [splitRest_delim]
        have hch : (p ++ x :: u).IsChain fun a b => ¬ (a = x ∧ b = x) := by rw [hcat]; exact hs.2.2
        have hla : (p ++ x :: u).getLast? ≠ some x := by rw [hcat]; exact hs.2.1
        rw [List.getLast?_append_of_ne_nil _ (by simp)] at hla
        rw [List.isChain_append] at hch
        cases u with
        | nil => exact absurd rfl hla
        | cons y v =>
          rw [List.getLast?_cons_cons] at hla
          have hxy : ¬ (x = x ∧ y = x) := by
            have := hch.2.1
            rw [List.isChain_cons_cons] at this
            exact this.1
          have hyv : Clean x (y :: v) := by
            refine ⟨fun e => hxy ⟨rfl, by simpa using e⟩, hla, ?_⟩
            have := hch.2.1
            rw [List.isChain_cons_cons] at this
            exact this.2
          have := ih (y :: v).length (by
            have := congrArg List.length hcat
            simp at this hn ⊢
            omega) (y :: v) hyv rfl
          have hy : y ≠ x := fun e => hxy ⟨rfl, e⟩
          rw [splitRest_cons x y v hy] at this ⊢
          show p ++ x :: joinWith x _ = _
          rw [this, hcat]

theorem C50_split_join (d : Char) (l : List (List Char)) (hl : ∀ p ∈ l, p ≠ [] ∧ d ∉ p) (out : List (List Char)) :
    splitstr (joinWith d l) d out = out ++ l := by
  unfold splitstr
  rw [splitRest_join d l hl]

/-- Where C50 fails: for every string with a leading, a trailing or a doubled delimiter the parts do not give the string
back (empty parts are lost). -/
theorem C50_split_fails (d : Char) (s : List Char) (hs : ¬ Clean d s) : joinWith d (splitstr s d []) ≠ s := by
  intro e
  apply hs
  have := joinWith_clean d (splitRest d s) (splitRest_parts d s)
  unfold splitstr at e
  rw [List.nil_append] at e
  rwa [e] at this

example : Clean ',' "a,bc,d".toList := by
  refine ⟨by decide, by decide, by decide⟩
example : splitstr "a,bc,d".toList ',' [] = ["a".toList, "bc".toList, "d".toList] :=
  C50_split_join ',' ["a".toList, "bc".toList, "d".toList] (by decide) []
example : ¬ Clean ',' "a,,b".toList := fun h => absurd h.2.2 (by decide)

/-! ### Options -/

section
variable {A : Type _} [DecidableEq A]

theorem dropWhile_first (l : List A) (o : A) (h : o ∈ l) :
    ∃ i : Nat, l[i]? = some o ∧ (∀ k, k < i → l[k]? ≠ some o) ∧ l.dropWhile (· ≠ o) = l.drop i := by
  induction l with
  | nil => cases h
  | cons a l ih =>
    by_cases ha : a = o
    · subst ha
      exact ⟨0, rfl, fun _ h => by omega, by simp⟩
    · have hm : o ∈ l := by
        rcases List.mem_cons.mp h with h | h
        · exact absurd h.symm ha
        · exact h
      obtain ⟨i, h1, h2, h3⟩ := ih hm
      refine ⟨i + 1, by simpa using h1, ?_, ?_⟩
      · intro k hk
        cases k with
        | zero => simpa using ha
        | succ k => simpa using h2 k (by omega)
      · rw [List.dropWhile_cons_of_pos (by simpa using ha), h3]
        rfl

theorem dropWhile_absent (l : List A) (o : A) (h : o ∉ l) : l.dropWhile (· ≠ o) = [] := by
  rw [List.dropWhile_eq_nil_iff]
  intro x hx
  have : x ≠ o := fun e => h (e ▸ hx)
  simpa using this

/-- **C70.**  The value of an option is the argument that follows its first occurrence; there is none exactly when
the option does not occur or its first occurrence is the last argument; and the test for an option is true exactly when
it occurs. -/
theorem C70_option (args : List A) (o : A) :
    (∀ v, getCmdOption args o = some v ↔
      ∃ i : Nat, args[i]? = some o ∧ (∀ k, k < i → args[k]? ≠ some o) ∧ args[i + 1]? = some v) ∧
    (getCmdOption args o = none ↔ o ∉ args ∨
      ∃ i : Nat, args[i]? = some o ∧ (∀ k, k < i → args[k]? ≠ some o) ∧ i + 1 = args.length) ∧
    (cmdOptionExists args o = true ↔ o ∈ args) := by
  by_cases h : o ∈ args
  · obtain ⟨i, h1, h2, h3⟩ := dropWhile_first args o h
    have huniq : ∀ i' : Nat, args[i']? = some o → (∀ k, k < i' → args[k]? ≠ some o) → i' = i := by
      intro i' a b
      rcases Nat.lt_trichotomy i' i with c | c | c
      · exact absurd a (h2 i' c)
      · exact c
      · exact absurd h1 (b i c)
    have hi : i < args.length := (List.getElem?_eq_some_iff.mp h1).1
    have hd : args.drop i = args[i] :: args.drop (i + 1) := List.drop_eq_getElem_cons hi
    by_cases hl : i + 1 = args.length
    · have hnil : args.drop (i + 1) = [] := by rw [hl, List.drop_length]
      have hg : getCmdOption args o = none := by
        unfold getCmdOption
        rw [h3, hd, hnil]
      refine ⟨?_, ?_, ?_⟩
      · intro v
        rw [hg]
        constructor
        · intro e; cases e
        · rintro ⟨i', a, b, c⟩
          rw [huniq i' a b, hl] at c
          simp at c
      · exact ⟨fun _ => Or.inr ⟨i, h1, h2, hl⟩, fun _ => hg⟩
      · unfold cmdOptionExists
        rw [h3, hd]
        simp [h, hi]
    · have hi2 : i + 1 < args.length := by omega
      have hd2 : args.drop (i + 1) = args[i + 1] :: args.drop (i + 1 + 1) := List.drop_eq_getElem_cons hi2
      have hg : getCmdOption args o = some args[i + 1] := by
        unfold getCmdOption
        rw [h3, hd, hd2]
      refine ⟨?_, ?_, ?_⟩
      · intro v
        rw [hg]
        constructor
        · intro e
          cases e
          exact ⟨i, h1, h2, List.getElem?_eq_getElem hi2⟩
        · rintro ⟨i', a, b, c⟩
          rw [huniq i' a b, List.getElem?_eq_getElem hi2] at c
          exact c
      · rw [hg]
        constructor
        · intro e; cases e
        · rintro (a | ⟨i', a, b, c⟩)
          · exact absurd h a
          · rw [huniq i' a b] at c
            exact absurd c hl
      · unfold cmdOptionExists
        rw [h3, hd]
        simp [h, hi]
  · have h3 := dropWhile_absent args o h
    have hg : getCmdOption args o = none := by
      unfold getCmdOption
      rw [h3]
    have hno : ∀ i : Nat, args[i]? ≠ some o := fun i e => h (List.mem_of_getElem? e)
    refine ⟨?_, ?_, ?_⟩
    · intro v
      rw [hg]
      constructor
      · intro e; cases e
      · rintro ⟨i, a, _⟩
        exact absurd a (hno i)
    · exact ⟨fun _ => Or.inl h, fun _ => hg⟩
    · unfold cmdOptionExists
      rw [h3]
      simp [h]

end

/-- **C50 (partial), the configuration file.**  Without `-h` and `--version`: the file is the argument that follows the
first `-f`, and `<package>.json` if there is no `-f`.  Missing: `-f` as the last argument, see `C50_config_fails`. -/
theorem C50_config_partial (package : List Char) (args : List (List Char)) (h1 : "-h".toList ∉ args)
    (h2 : "--version".toList ∉ args) :
    ("-f".toList ∉ args → parseArgv package args = .ok (.file (package ++ ".json".toList))) ∧
    (∀ i : Nat, ∀ v, args[i]? = some "-f".toList → (∀ k, k < i → args[k]? ≠ some "-f".toList) → args[i + 1]? = some v →
      v ≠ [] → parseArgv package args = .ok (.file v)) := by
  have e1 : "-h".toList = ['-', 'h'] := by decide
  have e2 : "--version".toList = ['-', '-', 'v', 'e', 'r', 's', 'i', 'o', 'n'] := by decide
  have e3 : "-f".toList = ['-', 'f'] := by decide
  have e4 : ".json".toList = ['.', 'j', 's', 'o', 'n'] := by decide
  rw [e1] at h1
  rw [e2] at h2
  rw [e3, e4]
  have b1 : ¬ cmdOptionExists args ['-', 'h'] = true := fun h => h1 ((C70_option args _).2.2.mp h)
  have b2 : ¬ cmdOptionExists args ['-', '-', 'v', 'e', 'r', 's', 'i', 'o', 'n'] = true :=
    fun h => h2 ((C70_option args _).2.2.mp h)
  unfold parseArgv
  rw [if_neg b1, if_neg b2]
  constructor
  · intro h
    have b3 : ¬ cmdOptionExists args ['-', 'f'] = true := fun h' => h ((C70_option args _).2.2.mp h')
    rw [if_neg b3, Res.ok_bind, if_neg (by simp)]
  · intro i v k1 k2 k3 hv
    have b3 : cmdOptionExists args ['-', 'f'] = true := (C70_option args _).2.2.mpr (List.mem_of_getElem? k1)
    have g := ((C70_option args ['-', 'f']).1 v).mpr ⟨i, k1, k2, k3⟩
    rw [if_pos b3, g]
    simp only [Res.ok_bind]
    rw [if_neg hv]

/-- Where C50 fails: with `-f` as the last argument a null pointer is used as a string instead of an error message. -/
theorem C50_config_fails (package : List Char) (args : List (List Char)) (h1 : "-h".toList ∉ args)
    (h2 : "--version".toList ∉ args) (h3 : "-f".toList ∉ args) : parseArgv package (args ++ ["-f".toList]) = .ub := by
  have e1 : "-h".toList = ['-', 'h'] := by decide
  have e2 : "--version".toList = ['-', '-', 'v', 'e', 'r', 's', 'i', 'o', 'n'] := by decide
  have e3 : "-f".toList = ['-', 'f'] := by decide
  rw [e1] at h1
  rw [e2] at h2
  rw [e3] at h3 ⊢
  have b1 : ¬ cmdOptionExists (args ++ [['-', 'f']]) ['-', 'h'] = true := fun h => by
    have := (C70_option _ _).2.2.mp h
    simp [h1] at this
  have b2 : ¬ cmdOptionExists (args ++ [['-', 'f']]) ['-', '-', 'v', 'e', 'r', 's', 'i', 'o', 'n'] = true := fun h => by
    have := (C70_option _ _).2.2.mp h
    simp [h2] at this
  have b3 : cmdOptionExists (args ++ [['-', 'f']]) ['-', 'f'] = true := (C70_option _ _).2.2.mpr (by simp)
  have g : getCmdOption (args ++ [['-', 'f']]) ['-', 'f'] = none := by
    refine (C70_option _ _).2.1.mpr (Or.inr ⟨args.length, by simp, ?_, by simp⟩)
    intro k hk e
    rw [List.getElem?_append_left hk] at e
    exact h3 (List.mem_of_getElem? e)
  unfold parseArgv
  rw [if_neg b1, if_neg b2, if_pos b3, g, Res.ub_bind]

example : parseArgv "PiCoPiC".toList ["picopic".toList, "-f".toList, "a.json".toList] = .ok (.file "a.json".toList) :=
  (C50_config_partial _ _ (by decide) (by decide)).2 1 _ (by decide) (by decide) (by decide) (by decide)

/-! ### Multiples -/

section
open _root_.Pico.Place
variable {K : Type _} [Field K] [LinearOrder K] [IsStrictOrderedRing K] [FloorRing K]

/-- **C50 (partial), multiples.**  The helper returns the smallest multiple of a whole number `n` that is not below the given
number (exact arithmetic).  Missing: the end of the range of `unsigned int`, see `C50_multiple_fails`. -/
theorem C50_multiple_partial {number n : Nat} (hn : 1 ≤ n) (hlt : number + n < 2 ^ 32) :
    ∃ m, NearestDivide number (n : K) m ∧ (∀ m', NearestDivide number (n : K) m' → m' = m) ∧ n ∣ m ∧ number ≤ m ∧
      ∀ k, n ∣ k → number ≤ k → m ≤ k := by
  obtain ⟨m, a, b, c, d, e⟩ := C32_nearest (K := K) hn hlt
  refine ⟨m, a, b, c, d, ?_⟩
  intro k hk hle
  by_contra hlt'
  have hsub : n ∣ m - k := Nat.dvd_sub c hk
  have := Nat.le_of_dvd (by omega) hsub
  omega

/-- Where C50 fails: if no multiple fits `unsigned int` any more the search wraps around and returns 0. -/
theorem C50_multiple_fails {number n : Nat} (hn : 1 ≤ n) (hlt : number < 2 ^ 32) (h : ∀ k, number ≤ k → k < 2 ^ 32 → ¬ n ∣ k) :
    ∀ m, NearestDivide number (n : K) m ↔ m = 0 := by
  have key : ∀ d number, d = 2 ^ 32 - number → number < 2 ^ 32 → (∀ k, number ≤ k → k < 2 ^ 32 → ¬ n ∣ k) →
      NearestDivide number (n : K) 0 := by
    intro d
    induction d with
    | zero => intro r e hr; omega
    | succ d ih =>
      intro r e hr h
      refine .step (by rw [nearest_step hn]; simpa using h r (le_refl _) hr) ?_
      by_cases hlast : r + 1 = 2 ^ 32
      · rw [hlast, Nat.mod_self]
        exact .done (by rw [nearest_step hn]; simp)
      · rw [Nat.mod_eq_of_lt (by omega)]
        exact ih (r + 1) (by omega) (by omega) (fun k hk => h k (by omega))
  have h0 := key _ number rfl hlt h
  intro m
  constructor
  · intro hm
    exact hm.det h0
  · rintro rfl
    exact h0

example : ∀ k, 4294967291 ≤ k → k < 2 ^ 32 → ¬ 1000 ∣ k := by
  intro k h1 h2 h3
  omega

end

/-! ### Run time -/

/-- Seconds of a unit. -/
def seconds : Unit' → Int
  | .day => 86400 | .hour => 3600 | .minute => 60 | .second => 1

/-- The time a list of numbers with units denotes. -/
def denotes (l : List (Int × Unit')) : Int := (l.map fun p => p.1 * seconds p.2).sum

theorem decimal_pos (n : Int) : 1 ≤ (decimal n).length := by
  have h0 : ∀ m : Nat, 1 ≤ (toString m).length := by
    intro m
    have : (toString m) = String.ofList (Nat.toDigits 10 m) := rfl
    rw [this, String.length_ofList]
    exact Nat.length_toDigits_pos
  unfold decimal
  rw [String.length_toList]
  cases n with
  | ofNat m => exact h0 m
  | negSucc m =>
    show 1 ≤ (String.append "-" (Nat.repr (m + 1))).length
    have : (String.append "-" (Nat.repr (m + 1))).length = 1 + (Nat.repr (m + 1)).length := String.length_append _ _
    omega

/-- **C51 (partial).**  For every elapsed time below `2^31` seconds, the text that is formatted consists of numbers with
units that add up to the elapsed time; the seconds and minutes that follow a larger unit are below 60 and the hours below
24.  Missing: the text is written to a buffer of a single byte, see `C51_fails`. -/
theorem C51_partial (t : Int) (h0 : 0 ≤ t) (h1 : t < 2 ^ 31) :
    ∃ l, durationParts t = .ok l ∧ (∀ room, (durationText l).length + 1 ≤ room → durationWith room t = .ok (durationText l)) ∧
      denotes l = t ∧ (∀ p ∈ l, 0 ≤ p.1) ∧
      (∀ p ∈ l.tail, (p.2 = .second ∨ p.2 = .minute) ∧ p.1 < 60 ∨ p.2 = .hour ∧ p.1 < 24) := by
  have hi : toInt t = .ok t := by unfold toInt; rw [if_pos ⟨by omega, h1⟩]
  have key : ∃ l, durationParts t = .ok l ∧ denotes l = t ∧ (∀ p ∈ l, 0 ≤ p.1) ∧
      (∀ p ∈ l.tail, (p.2 = .second ∨ p.2 = .minute) ∧ p.1 < 60 ∨ p.2 = .hour ∧ p.1 < 24) := by
    unfold durationParts
    by_cases ha : t > 60 ∧ t < 3600
    · rw [if_pos ha, hi, Res.ok_bind]
      have q1 := Int.tdiv_eq_ediv_of_nonneg (b := 60) h0
      refine ⟨_, rfl, ?_, ?_, ?_⟩
      · simp [denotes, seconds]
      · intro p hp
        simp only [List.mem_cons, List.not_mem_nil, or_false] at hp
        rcases hp with rfl | rfl <;> simp only <;> rw [q1] <;> omega
      · intro p hp
        simp only [List.tail_cons, List.mem_cons, List.not_mem_nil, or_false] at hp
        subst hp
        left
        refine ⟨by simp, ?_⟩
        simp only
        rw [q1]
        omega
    · rw [if_neg ha]
      by_cases hb : t > 3600 ∧ t < 86400
      · rw [if_pos hb, hi, Res.ok_bind]
        have q1 := Int.tdiv_eq_ediv_of_nonneg (b := 3600) h0
        have q2 := Int.tdiv_eq_ediv_of_nonneg (a := t - t / 3600 * 3600) (b := 60) (by omega)
        simp only [q1, q2]
        refine ⟨_, rfl, ?_, ?_, ?_⟩
        · simp only [denotes, seconds, List.map_cons, List.map_nil, List.sum_cons, List.sum_nil]
          omega
        · intro p hp
          simp only [List.mem_cons, List.not_mem_nil, or_false] at hp
          rcases hp with rfl | rfl | rfl <;> simp only <;> omega
        · intro p hp
          simp only [List.tail_cons, List.mem_cons, List.not_mem_nil, or_false] at hp
          rcases hp with rfl | rfl
          · exact Or.inl ⟨Or.inr rfl, by simp only; omega⟩
          · exact Or.inl ⟨Or.inl rfl, by simp only; omega⟩
      · rw [if_neg hb]
        by_cases hc : t > 86400
        · rw [if_pos hc, hi, Res.ok_bind]
          have q1 := Int.tdiv_eq_ediv_of_nonneg (b := 86400) h0
          have q2 := Int.tdiv_eq_ediv_of_nonneg (a := t - t / 86400 * 86400) (b := 3600) (by omega)
          have q3 := Int.tdiv_eq_ediv_of_nonneg
            (a := t - t / 86400 * 86400 - (t - t / 86400 * 86400) / 3600 * 3600) (b := 60) (by omega)
          simp only [q1, q2, q3]
          refine ⟨_, rfl, ?_, ?_, ?_⟩
          · simp only [denotes, seconds, List.map_cons, List.map_nil, List.sum_cons, List.sum_nil]
            omega
          · intro p hp
            simp only [List.mem_cons, List.not_mem_nil, or_false] at hp
            rcases hp with rfl | rfl | rfl | rfl <;> simp only <;> omega
          · intro p hp
            simp only [List.tail_cons, List.mem_cons, List.not_mem_nil, or_false] at hp
            rcases hp with rfl | rfl | rfl
            · exact Or.inr ⟨rfl, by simp only; omega⟩
            · exact Or.inl ⟨Or.inr rfl, by simp only; omega⟩
            · exact Or.inl ⟨Or.inl rfl, by simp only; omega⟩
        · rw [if_neg hc]
          refine ⟨_, rfl, ?_, ?_, ?_⟩
          · simp [denotes, seconds]
          · intro p hp
            simp only [List.mem_cons, List.not_mem_nil, or_false] at hp
            subst hp
            exact h0
          · intro p hp
            simp at hp
  obtain ⟨l, e, a, b, c⟩ := key
  refine ⟨l, e, ?_, a, b, c⟩
  intro room hr
  unfold durationWith
  rw [e, Res.ok_bind]
  unfold sprintf
  rw [if_pos hr]

/-- The text a user expects: numbers in decimal notation, each followed by the letter of its unit, with blanks between them.  A time of
exactly one hour or one day is given in seconds. -/
def expectedText (t : Int) : List Char :=
  if 60 < t ∧ t < 3600 then (toString (t / 60)).toList ++ "m ".toList ++ (toString (t % 60)).toList ++ "s".toList
  else if 3600 < t ∧ t < 86400 then
    (toString (t / 3600)).toList ++ "h ".toList ++ (toString (t % 3600 / 60)).toList ++ "m ".toList ++ (toString (t % 60)).toList ++ "s".toList
  else if 86400 < t then
    (toString (t / 86400)).toList ++ "d ".toList ++ (toString (t % 86400 / 3600)).toList ++ "h ".toList ++ (toString (t % 3600 / 60)).toList ++
      "m ".toList ++ (toString (t % 60)).toList ++ "s".toList
  else (toString t).toList ++ "s".toList

/-- **C51 (partial), the text.**  With enough room, the text is the expected one, character by character. -/
theorem C51_text_partial (t : Int) (h0 : 0 ≤ t) (h1 : t < 2 ^ 31) (room : Nat) :
    durationWith room t = if (expectedText t).length + 1 ≤ room then .ok (expectedText t) else .ub := by
  have hi : toInt t = .ok t := by unfold toInt; rw [if_pos ⟨by omega, h1⟩]
  have key : durationParts t >>= (fun l => .ok (durationText l)) = .ok (expectedText t) := by
    have d1 : "m ".toList = ['m', ' '] := by decide +kernel
    have d2 : "h ".toList = ['h', ' '] := by decide +kernel
    have d3 : "d ".toList = ['d', ' '] := by decide +kernel
    have d4 : "s".toList = ['s'] := by decide +kernel
    unfold durationParts expectedText
    rw [d1, d2, d3, d4]
    by_cases ha : t > 60 ∧ t < 3600
    · rw [if_pos ha, if_pos ha, hi, Res.ok_bind]
      have q1 := Int.tdiv_eq_ediv_of_nonneg (b := 60) h0
      have r1 : t - t / 60 * 60 = t % 60 := by omega
      simp only [q1, r1, Res.ok_bind]
      simp [durationText, decimal, letter, List.intercalate]
    · rw [if_neg ha, if_neg ha]
      by_cases hb : t > 3600 ∧ t < 86400
      · rw [if_pos hb, if_pos hb, hi, Res.ok_bind]
        have q1 := Int.tdiv_eq_ediv_of_nonneg (b := 3600) h0
        have q2 := Int.tdiv_eq_ediv_of_nonneg (a := t - t / 3600 * 3600) (b := 60) (by omega)
        have r1 : (t - t / 3600 * 3600) / 60 = t % 3600 / 60 := by omega
        have r2 : t - t / 3600 * 3600 - t % 3600 / 60 * 60 = t % 60 := by omega
        simp only [q1, q2, r1, r2, Res.ok_bind]
        simp [durationText, decimal, letter, List.intercalate]
      · rw [if_neg hb, if_neg hb]
        by_cases hc : t > 86400
        · rw [if_pos hc, if_pos hc, hi, Res.ok_bind]
          have q1 := Int.tdiv_eq_ediv_of_nonneg (b := 86400) h0
          have q2 := Int.tdiv_eq_ediv_of_nonneg (a := t - t / 86400 * 86400) (b := 3600) (by omega)
          have q3 := Int.tdiv_eq_ediv_of_nonneg
            (a := t - t / 86400 * 86400 - (t - t / 86400 * 86400) / 3600 * 3600) (b := 60) (by omega)
          have r1 : (t - t / 86400 * 86400) / 3600 = t % 86400 / 3600 := by omega
          have r2 : (t - t / 86400 * 86400 - (t - t / 86400 * 86400) / 3600 * 3600) / 60 = t % 3600 / 60 := by omega
          have r3 : t - t / 86400 * 86400 - t % 86400 / 3600 * 3600 - t % 3600 / 60 * 60 = t % 60 := by omega
          simp only [q1, q2, q3]
          rw [r2]
          simp only [r1, r3, Res.ok_bind]
          simp [durationText, decimal, letter, List.intercalate]
        · rw [if_neg hc, if_neg hc, Res.ok_bind]
          simp [durationText, decimal, letter, List.intercalate]
  unfold durationWith
  cases e : durationParts t with
  | ok l =>
    rw [e, Res.ok_bind] at key
    rw [Res.ok_bind, Res.ok.inj key]
    rfl
  | fatal => rw [e] at key; cases key
  | ub => rw [e] at key; cases key

/-- Where C51 fails: for every elapsed time, reporting it is undefined behaviour: the buffer has one byte, and the shortest
text needs three. -/
theorem C51_fails (t : Int) : duration t = .ub := by
  have hp : ∀ l, durationParts t = .ok l → l ≠ [] := by
    intro l h
    unfold durationParts at h
    have ht : toInt t = .ok t ∨ toInt t = .ub := by
      unfold toInt
      by_cases h : -2 ^ 31 ≤ t ∧ t < 2 ^ 31
      · left; rw [if_pos h]
      · right; rw [if_neg h]
    rcases ht with ht | ht
    · rw [ht] at h
      simp only [Res.ok_bind] at h
      split at h
      · cases h; simp
      · split at h
        · cases h; simp
        · split at h
          · cases h; simp
          · cases h; simp
    · rw [ht] at h
      simp only [Res.ub_bind] at h
      split at h
      · cases h
      · split at h
        · cases h
        · split at h
          · cases h
          · cases h; simp
  have hlen : ∀ l : List (Int × Unit'), l ≠ [] → 1 ≤ (durationText l).length := by
    intro l hl
    obtain ⟨p, l, rfl⟩ := List.exists_cons_of_ne_nil hl
    have := decimal_pos p.1
    unfold durationText
    cases l with
    | nil => simp [List.intercalate]
    | cons q l =>
      simp only [List.intercalate, List.map_cons, List.intersperse_cons_cons, List.flatten_cons, List.length_append]
      omega
  unfold duration durationWith
  cases h : durationParts t with
  | ok l =>
    rw [Res.ok_bind]
    unfold sprintf
    rw [if_neg]
    have := hlen l (hp l h)
    omega
  | fatal =>
    exfalso
    unfold durationParts toInt at h
    split at h
    · split at h <;> simp at h
    · split at h
      · split at h <;> simp at h
      · split at h
        · split at h <;> simp at h
        · cases h
  | ub => rfl

example : durationParts 90061 = .ok [(1, .day), (1, .hour), (1, .minute), (1, .second)] := by decide
example : durationText [(1, .day), (1, .hour), (1, .minute), (1, .second)] = "1d 1h 1m 1s".toList := by decide +kernel
example : expectedText 90061 = "1d 1h 1m 1s".toList ∧ expectedText 59 = "59s".toList ∧ durationWith 12 90061 = .ok "1d 1h 1m 1s".toList := by decide +kernel
example : durationParts 3600 = .ok [(3600, .second)] := by decide

end Help
end Pico
