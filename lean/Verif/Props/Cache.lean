import Verif.Spec.Cache
import Mathlib.Data.List.Basic
import Mathlib.Tactic.Common

/-!
# C132: the cache of the analysis library returns what was stored
-/

set_option linter.unusedSimpArgs false
set_option linter.unusedVariables false

namespace Pico
namespace Cache

variable {K : Type}

theorem split_simple {k : Key} (h : '/' ∉ k) : split k = [k] := by
  induction k with
  | nil => rfl
  | cons c cs ih =>
    simp only [List.mem_cons, not_or] at h
    unfold split
    rw [if_neg (fun e => h.1 e.symm), ih h.2]

theorem place_simple (w : World K) (c : Tiny) {k : Key} (h : Simple k) (hd : w.isDir c.path = true) : place w c k = some (c.path ++ [k]) := by
  obtain ⟨h1, h2, h3, h4⟩ := h
  have e : k.head? ≠ some '/' := by
    intro q
    exact h4 (List.mem_of_mem_head? q)
  unfold place
  rw [if_neg e, split_simple h4]
  simp [walk, hd, h1, h2, h3]

theorem snoc_inj {p q : Path} {x y : List Char} (h : p ++ [x] = q ++ [y]) : p = q ∧ x = y := by
  have := List.append_inj' h rfl
  exact ⟨this.1, by simpa using this.2⟩

/-- What stays true. -/
structure Inv (w : World K) (cs : Nat → Tiny) (m : Nat → Key → Option (List K)) : Prop where
  apart : ∀ i j, (cs i).path = (cs j).path → i = j
  dirs : ∀ i n, w.isDir ((cs i).path.take n) = true
  leaves : ∀ i k, Simple k → w.isDir ((cs i).path ++ [k]) = false
  free : ∀ i n, w.files ((cs i).path.take n) = none
  file : ∀ i k, Simple k → w.files ((cs i).path ++ [k]) = m i k
  mem : ∀ i k r, Simple k → (cs i).mem k = some r → ∃ v, m i k = some v ∧ w.heap[r]? = some (flat v)

theorem dir_self {w : World K} {cs : Nat → Tiny} (h : ∀ i n, w.isDir ((cs i).path.take n) = true) (i : Nat) : w.isDir (cs i).path = true := by
  have := h i (cs i).path.length
  rwa [List.take_length] at this

theorem leaf_not {w : World K} {cs : Nat → Tiny} (hd : ∀ i n, w.isDir ((cs i).path.take n) = true) (hl : ∀ i k, Simple k → w.isDir ((cs i).path ++ [k]) = false)
    (i j n : Nat) (k : Key) (hk : Simple k) : (cs j).path.take n ≠ (cs i).path ++ [k] := by
  intro e
  have := hl i k hk
  rw [← e, hd j n] at this
  cases this

theorem Inv.heap {w : World K} {cs : Nat → Tiny} {m : Nat → Key → Option (List K)} (h : Inv w cs m) (a : Arr K) :
    Inv { w with heap := w.heap ++ [a] } cs m :=
  ⟨h.apart, h.dirs, h.leaves, h.free, h.file, fun i k r hk e => by
    obtain ⟨v, q, q'⟩ := h.mem i k r hk e
    refine ⟨v, q, ?_⟩
    have : r < w.heap.length := by
      by_contra hr
      rw [List.getElem?_eq_none (by omega)] at q'
      cases q'
    show (w.heap ++ [a])[r]? = _
    rw [List.getElem?_append_left this, q']⟩

theorem Inv.path {w : World K} {cs cs' : Nat → Tiny} {m : Nat → Key → Option (List K)} (h : Inv w cs m) (hp : ∀ i, (cs' i).path = (cs i).path)
    (hm : ∀ i k r, Simple k → (cs' i).mem k = some r → ∃ v, m i k = some v ∧ w.heap[r]? = some (flat v)) : Inv w cs' m :=
  ⟨fun i j => by rw [hp, hp]; exact h.apart i j, fun i n => by rw [hp]; exact h.dirs i n, fun i k => by rw [hp]; exact h.leaves i k,
    fun i n => by rw [hp]; exact h.free i n, fun i k => by rw [hp]; exact h.file i k, hm⟩

/-- Writing a file. -/
theorem Inv.write {w : World K} {cs : Nat → Tiny} {m : Nat → Key → Option (List K)} (h : Inv w cs m) (i : Nat) {k : Key} (hk : Simple k) (l : List K) :
    toFile w (cs i) k l = some { w with files := fun q => if q = (cs i).path ++ [k] then some l else w.files q } ∧
      ∀ cs', (∀ j, (cs' j).path = (cs j).path) →
        (∀ j x r, Simple x → (cs' j).mem x = some r → ∃ v, (if j = i ∧ x = k then some l else m j x) = some v ∧ w.heap[r]? = some (flat v)) →
        Inv { w with files := fun q => if q = (cs i).path ++ [k] then some l else w.files q } cs' (fun j x => if j = i ∧ x = k then some l else m j x) := by
  constructor
  · unfold toFile
    rw [place_simple w _ hk (dir_self h.dirs i)]
    simp only [h.leaves i k hk, Bool.false_eq_true, if_false]
  · intro cs' hp hm
    refine ⟨fun i j => by rw [hp, hp]; exact h.apart i j, fun i n => by rw [hp]; exact h.dirs i n, fun i k => by rw [hp]; exact h.leaves i k, fun j n => ?_, fun j x hx => ?_, hm⟩
    · show (if _ then _ else _) = _
      rw [hp, if_neg (leaf_not h.dirs h.leaves i j n k hk)]
      exact h.free j n
    · show (if _ then _ else _) = _
      rw [hp]
      by_cases e : j = i ∧ x = k
      · obtain ⟨rfl, rfl⟩ := e
        rw [if_pos rfl, if_pos ⟨rfl, rfl⟩]
      · rw [if_neg e, if_neg (fun q => e ?_)]
        · exact h.file j x hx
        · obtain ⟨q1, q2⟩ := snoc_inj q
          exact ⟨h.apart j i q1, q2⟩

theorem Inv.create {w : World K} {cs : Nat → Tiny} {m : Nat → Key → Option (List K)} (h : Inv w cs m) (i : Nat) :
    ∃ w' c', Cache.create w (cs i).path = .ok (w', c') ∧ Inv w' (fun j => if j = i then c' else cs j) m := by
  refine ⟨{ w with isDir := fun q => w.isDir q || q.isPrefixOf (cs i).path }, ⟨(cs i).path, fun _ => none⟩, ?_, ?_⟩
  · unfold Cache.create
    rw [if_neg]
    simp only [List.any_eq_true, not_exists, not_and]
    intro n _
    rw [h.free i n]
    simp
  · have hp : ∀ j, (if j = i then (⟨(cs i).path, fun _ => none⟩ : Tiny) else cs j).path = (cs j).path := by
      intro j
      split_ifs with e
      · rw [e]
      · rfl
    refine ⟨fun a b => by rw [hp, hp]; exact h.apart a b, fun j n => ?_, fun j k hk => ?_, fun j n => ?_, fun j k hk => ?_, fun j k r hk e => ?_⟩
    · rw [hp]
      show (_ || _) = true
      rw [h.dirs j n]
      rfl
    · rw [hp]
      show (_ || _) = false
      rw [h.leaves j k hk, Bool.false_or, Bool.eq_false_iff]
      intro q
      have := List.isPrefixOf_iff_prefix.mp q
      obtain ⟨t, ht⟩ := this
      refine leaf_not h.dirs h.leaves j i ((cs j).path ++ [k]).length k hk ?_
      rw [← ht, List.take_left']
      rfl
    · rw [hp]
      exact h.free j n
    · rw [hp]
      exact h.file j k hk
    · split_ifs at e with q
      · exact h.mem j k r hk e

/-- **C132**, as far as it holds: any number of caches in different directories, used in any order with plain names as keys and lists of numbers as values.  Every
answer is the list stored last under this key of this cache, however often the program was started anew since; a crash only affects the key that was being
stored, of which a first part is kept.  Nothing raises an exception.  Missing: other keys, other shapes, several users of a directory. -/
theorem C132_kept_partial (w : World K) (cs : Nat → Tiny) (h : Fresh w cs) (es : List (Ev K)) (hp : ∀ e ∈ es, e.Plain) :
    happens w cs es = .ok ((expected (fun i k => w.files ((cs i).path ++ [k])) es).map flat) := by
  have start : Inv w cs (fun i k => w.files ((cs i).path ++ [k])) :=
    ⟨h.apart, h.dirs, h.leaves, h.free, fun _ _ _ => rfl, fun i k r _ e => by rw [h.empty] at e; cases e⟩
  generalize (fun i k => w.files ((cs i).path ++ [k])) = m at start
  clear h
  induction es generalizing w cs m with
  | nil => rfl
  | cons e es ih =>
    have hes : ∀ e ∈ es, e.Plain := fun x hx => hp x (List.mem_cons_of_mem _ hx)
    have he := hp e List.mem_cons_self
    cases e with
    | store i k v =>
      have hk : Simple k := he
      have hw := start.heap (flat v)
      obtain ⟨q1, q2⟩ := hw.write i hk v
      have s : store w (cs i) k (flat v) = ({ w with
          heap := w.heap ++ [flat v], files := fun q => if q = (cs i).path ++ [k] then some v else w.files q },
          { cs i with mem := fun x => if x = k then some w.heap.length else (cs i).mem x }, true) := by
        unfold store update make
        simp only [List.getElem?_append_right (Nat.le_refl _), Nat.sub_self, List.getElem?_cons_zero]
        rw [show (flat v).data = v from rfl, q1]
      unfold happens expected
      rw [s]
      dsimp only
      rw [if_pos rfl]
      refine ih _ _ hes _ (q2 _ (fun j => ?_) (fun j x r hx e => ?_))
      · split_ifs with q
        · rw [q]
        · rfl
      · by_cases q : j = i
        · subst q
          rw [if_pos rfl] at e
          dsimp only at e
          by_cases q' : x = k
          · rw [if_pos q'] at e
            obtain rfl := Option.some.inj e
            refine ⟨v, by rw [if_pos ⟨rfl, q'⟩], ?_⟩
            show (w.heap ++ [flat v])[w.heap.length]? = _
            simp
          · rw [if_neg q'] at e
            rw [if_neg (fun t => q' t.2)]
            exact hw.mem j x r hx e
        · rw [if_neg q] at e
          rw [if_neg (fun t => q t.1)]
          exact hw.mem j x r hx e
    | get i k =>
      have hk : Simple k := he
      unfold happens expected
      cases e : (cs i).mem k with
      | some r =>
        obtain ⟨v, q1, q2⟩ := start.mem i k r hk e
        have s : get w (cs i) k = (w, cs i, r) := by unfold get; rw [e]
        rw [s]
        dsimp only
        rw [q2]
        dsimp only
        have same : (fun j => if j = i then cs i else cs j) = cs := by
          funext j
          split_ifs with q
          · rw [q]
          · rfl
        rw [same, ih w cs hes m start, q1]
        rfl
      | none =>
        have f : fileOf w (cs i) k = m i k := by
          unfold fileOf
          rw [place_simple w _ hk (dir_self start.dirs i)]
          exact start.file i k hk
        cases g : m i k with
        | none =>
          have s : get w (cs i) k = ({ w with heap := w.heap ++ [flat []] }, cs i, w.heap.length) := by
            unfold get
            rw [e, f, g]
            rfl
          rw [s]
          dsimp only
          rw [List.getElem?_append_right (Nat.le_refl _), Nat.sub_self, List.getElem?_cons_zero]
          dsimp only
          have same : (fun j => if j = i then cs i else cs j) = cs := by
            funext j
            split_ifs with q
            · rw [q]
            · rfl
          rw [same, ih _ cs hes m (start.heap _)]
          rfl
        | some v =>
          have s : get w (cs i) k = ({ w with heap := w.heap ++ [flat v] }, { cs i with mem := fun x => if x = k then some w.heap.length else (cs i).mem x }, w.heap.length) := by
            unfold get
            rw [e, f, g]
            rfl
          rw [s]
          dsimp only
          rw [List.getElem?_append_right (Nat.le_refl _), Nat.sub_self, List.getElem?_cons_zero]
          dsimp only
          rw [ih _ _ hes m ((start.heap (flat v)).path (fun j => ?_) (fun j x r hx e => ?_))]
          · rfl
          · split_ifs with q
            · rw [q]
            · rfl
          · by_cases q : j = i
            · subst q
              rw [if_pos rfl] at e
              dsimp only at e
              by_cases q' : x = k
              · rw [if_pos q'] at e
                obtain rfl := Option.some.inj e
                subst q'
                refine ⟨v, g, ?_⟩
                show (w.heap ++ [flat v])[w.heap.length]? = _
                simp
              · rw [if_neg q'] at e
                exact (start.heap (flat v)).mem j x r hx e
            · rw [if_neg q] at e
              exact (start.heap (flat v)).mem j x r hx e
    | restart i =>
      obtain ⟨w', c', q1, q2⟩ := start.create i
      unfold happens expected
      rw [q1, Res.ok_bind]
      exact ih _ _ hes m q2
    | crash i k v n =>
      have hk : Simple k := he
      obtain ⟨q1, q2⟩ := start.write i hk (v.take n)
      unfold happens expected
      have s : interrupted w (cs i) k (flat v) n = { w with files := fun q => if q = (cs i).path ++ [k] then some (v.take n) else w.files q } := by
        unfold interrupted
        rw [show (flat v).data = v from rfl, q1]
        rfl
      rw [s]
      have q3 := q2 (fun j => if j = i then ⟨(cs i).path, fun _ => none⟩ else cs j) (fun j => by
        split_ifs with q
        · rw [q]
        · rfl) (fun j x r hx e => by
        by_cases q : j = i
        · rw [if_pos q] at e
          cases e
        · rw [if_neg q] at e
          rw [if_neg (fun t => q t.1)]
          exact start.mem j x r hx e)
      obtain ⟨w', c', q4, q5⟩ := q3.create i
      rw [if_pos rfl] at q4
      rw [q4, Res.ok_bind]
      have same : (fun j => if j = i then c' else if j = i then (⟨(cs i).path, fun _ => none⟩ : Tiny) else cs j) = (fun j => if j = i then c' else cs j) := by
        funext j
        split_ifs <;> rfl
      rw [same] at q5
      exact ih _ _ hes _ q5

/-- C132: within one process, whatever the key and the shape, and even if the file could not be written: a stored array is the one that is returned. -/
theorem C132_memory (w : World K) (c : Tiny) (k : Key) (r : Nat) (a : Arr K) (h : w.heap[r]? = some a) :
    (get (update w c k r).1 (update w c k r).2.1 k).2.2 = r ∧ contains (update w c k r).1 (update w c k r).2.1 k = true := by
  unfold update
  dsimp only
  rw [h]
  dsimp only
  cases toFile w c k a.data <;> simp [get, contains]

/-- A cache made anew in the same directory. -/
def again (c : Tiny) : Tiny := ⟨c.path, fun _ => none⟩

/-- What a newly made cache returns. -/
def answer (w : World K) (c : Tiny) (k : Key) : Option (Arr K) := (get w c k).1.heap[(get w c k).2.2]?

theorem answer_again (w : World K) (c : Tiny) (k : Key) : answer w (again c) k = some (flat ((fileOf w c k).getD [])) := by
  unfold answer get again
  dsimp only
  rw [show fileOf w ⟨c.path, fun _ => none⟩ k = fileOf w c k from rfl]
  cases fileOf w c k <;> simp [flat]

theorem fileOf_eq {w w' : World K} {c c' : Tiny} {k : Key} {p : Path} (h : place w c k = some p) (h1 : w'.isDir = w.isDir) (h2 : c'.path = c.path) :
    fileOf w' c' k = w'.files p := by
  unfold fileOf
  have : place w' c' k = place w c k := by
    unfold place
    rw [h1, h2]
  rw [this, h]
  rfl

theorem store_ok (w : World K) (c : Tiny) {k : Key} {a : Arr K} {w' : World K} {c' : Tiny} (h : store w c k a = (w', c', true)) :
    ∃ p, place w c k = some p ∧ w.isDir p = false ∧ w' = { w with
      heap := w.heap ++ [a], files := fun q => if q = p then some a.data else w.files q } ∧
      c' = { c with mem := fun x => if x = k then some w.heap.length else c.mem x } := by
  unfold store update make toFile at h
  simp only [List.getElem?_append_right (Nat.le_refl _), Nat.sub_self, List.getElem?_cons_zero] at h
  rw [show place { w with heap := w.heap ++ [a] } c k = place w c k from rfl] at h
  cases e : place w c k with
  | none =>
    rw [e] at h
    simp at h
  | some p =>
    rw [e] at h
    dsimp only at h
    by_cases d : w.isDir p = true
    · rw [if_pos d] at h
      simp at h
    · rw [if_neg d] at h
      simp only [Prod.mk.injEq, and_true] at h
      exact ⟨p, rfl, by simpa using d, h.1.symm, h.2.symm⟩

/-- C132: a key that was stored without exception is found by a newly made cache of the same directory, and one that is not found has no array.
With a plain name as key a newly made cache finds exactly the files of its directory. -/
theorem C132_found (w w' : World K) (c c' : Tiny) (k : Key) (a : Arr K) :
    (store w c k a = (w', c', true) → contains w' (again c') k = true ∧ contains w' c' k = true) ∧ (contains w c k = false → answer w c k = some (flat [])) ∧
    (Simple k → w.isDir c.path = true → (contains w (again c) k = true ↔ ∃ l, w.files (c.path ++ [k]) = some l)) := by
  refine ⟨fun h => ?_, fun h => ?_, fun hk hc => ?_⟩
  · obtain ⟨p, hp, hd, rfl, rfl⟩ := store_ok w c h
    refine ⟨?_, by simp [contains]⟩
    unfold contains
    rw [fileOf_eq hp]
    · simp
    all_goals rfl
  · unfold contains at h
    simp only [Bool.or_eq_false_iff, Option.isSome_eq_false_iff, Option.isNone_iff_eq_none] at h
    unfold answer get
    rw [h.1, h.2]
    simp [flat]
  · unfold contains again fileOf
    rw [place_simple w ⟨c.path, fun _ => none⟩ hk hc]
    simp [Option.isSome_iff_exists]

/-- **C132**, refuted: keys with `..` leave the directory of the cache.  What is stored under `../k` in a cache is what a cache of the directory
above returns for `k`, whatever was stored there. -/
theorem C132_parent_fails (w w' : World K) (p : Path) (d : List Char) (mem : Key → Option Nat) (c' : Tiny) (k : Key) (hk : Simple k) (l : List K)
    (h : store w ⟨p ++ [d], mem⟩ ('.' :: '.' :: '/' :: k) (flat l) = (w', c', true)) :
    answer w' ⟨p, fun _ => none⟩ k = some (flat l) ∧ w'.files (p ++ [k]) = some l := by
  obtain ⟨q, hq, hd, rfl, rfl⟩ := store_ok w _ h
  have sp : split ('.' :: '.' :: '/' :: k) = [['.', '.'], k] := by
    rw [split, if_neg (by decide), split, if_neg (by decide), split, if_pos rfl, split_simple hk.2.2.2]
  obtain ⟨hp, e⟩ : w.isDir p = true ∧ q = p ++ [k] := by
    unfold place at hq
    rw [if_neg (by simp), sp] at hq
    simp only [walk, List.dropLast_concat] at hq
    split_ifs at hq with a b c
    all_goals simp_all [Simple]
  subst e
  have e : place w ⟨p, fun _ => none⟩ k = some (p ++ [k]) := place_simple w ⟨p, fun _ => none⟩ hk hp
  refine ⟨?_, by simp [flat]⟩
  refine (answer_again _ ⟨p, fun _ => none⟩ k).trans ?_
  rw [fileOf_eq e]
  · simp [flat]
  all_goals rfl

/-- **C132**, refuted: arrays of other shapes.  Whenever a table (or a single number) is stored without exception under any key, a newly made cache returns an array
of another shape. -/
theorem C132_shape_fails (w w' : World K) (c c' : Tiny) (k : Key) (a : Arr K) (ha : a.sizes.length ≠ 1) (h : store w c k a = (w', c', true)) :
    ∃ b, answer w' (again c') k = some b ∧ b.data = a.data ∧ b.sizes ≠ a.sizes := by
  obtain ⟨p, hp, hd, rfl, rfl⟩ := store_ok w c h
  refine ⟨_, answer_again _ _ _, ?_, ?_⟩
  · rw [fileOf_eq hp]
    simp [flat]
    all_goals rfl
  · intro e
    rw [← e] at ha
    exact ha rfl

/-- **C132**, refuted: a key in a directory that is not there raises an exception, and yet is returned to the program, but lost with it: a newly made cache answers
with an empty array, and no exception. -/
theorem C132_directory_fails (w : World K) (c : Tiny) (d k : Key) (hd : Simple d) (hk : Simple k) (hc : w.isDir c.path = true)
    (hn : w.isDir (c.path ++ [d]) = false) (a : Arr K) :
    ∃ w' c', store w c (d ++ '/' :: k) a = (w', c', false) ∧ answer w' c' (d ++ '/' :: k) = some a ∧ answer w' (again c') (d ++ '/' :: k) = some (flat []) := by
  have sp : ∀ (x y : Key), '/' ∉ x → '/' ∉ y → split (x ++ '/' :: y) = [x, y] := by
    intro x y hx hy
    induction x with
    | nil => simp [split, split_simple hy]
    | cons z zs ih =>
      simp only [List.mem_cons, not_or] at hx
      rw [List.cons_append, split, if_neg (fun e => hx.1 e.symm), ih hx.2]
  have hh : (d ++ '/' :: k).head? ≠ some '/' := by
    intro e
    cases d with
    | nil => exact hd.1 rfl
    | cons z zs =>
      simp only [List.cons_append, List.head?_cons, Option.some.injEq] at e
      exact hd.2.2.2 (by rw [e]; exact List.mem_cons_self)
  have pl : ∀ w' c', w'.isDir = w.isDir → c'.path = c.path → place (K := K) w' c' (d ++ '/' :: k) = none := by
    intro w' c' h1 h2
    unfold place
    rw [if_neg hh, sp d k hd.2.2.2 hk.2.2.2, h1, h2]
    simp [walk, hc, hd.1, hd.2.1, hd.2.2.1, hn]
  refine ⟨{ w with heap := w.heap ++ [a] }, { c with mem := fun x => if x = d ++ '/' :: k then some w.heap.length else c.mem x }, ?_, ?_, ?_⟩
  · unfold store update make toFile
    simp only [List.getElem?_append_right (Nat.le_refl _), Nat.sub_self, List.getElem?_cons_zero]
    rw [pl { w with heap := w.heap ++ [a] } c rfl rfl]
  · unfold answer get
    simp
  · rw [answer_again]
    have : fileOf (K := K) { w with heap := w.heap ++ [a] } { c with mem := fun x => if x = d ++ '/' :: k then some w.heap.length else c.mem x } (d ++ '/' :: k) = none := by
      unfold fileOf
      rw [pl { w with heap := w.heap ++ [a] } { c with mem := fun x => if x = d ++ '/' :: k then some w.heap.length else c.mem x } rfl rfl]
      rfl
    rw [this]
    rfl

/-- **C132**, refuted: different keys can be the same file.  Values stored under `k` and then under `./k` are told apart until the program ends; a newly made
cache returns the second for the first. -/
theorem C132_clash_fails (w : World K) (c : Tiny) (k : Key) (hk : Simple k) (hc : w.isDir c.path = true) (hn : w.isDir (c.path ++ [k]) = false) (u v : List K) :
    ∃ w1 c1 w2 c2, store w c k (flat u) = (w1, c1, true) ∧ store w1 c1 ('.' :: '/' :: k) (flat v) = (w2, c2, true) ∧
      answer w2 c2 k = some (flat u) ∧ answer w2 (again c2) k = some (flat v) := by
  have p1 : ∀ w' c', w'.isDir = w.isDir → c'.path = c.path → place (K := K) w' c' k = some (c.path ++ [k]) := by
    intro w' c' h1 h2
    rw [place_simple w' c' hk (by rw [h1, h2]; exact hc), h2]
  have p2 : ∀ w' c', w'.isDir = w.isDir → c'.path = c.path → place (K := K) w' c' ('.' :: '/' :: k) = some (c.path ++ [k]) := by
    intro w' c' h1 h2
    unfold place
    have e : split ('.' :: '/' :: k) = [['.'], k] := by
      rw [split, if_neg (by decide), split, if_pos rfl, split_simple hk.2.2.2]
    rw [if_neg (by simp), e, h1, h2]
    simp [walk, hc, hk.1, hk.2.1, hk.2.2.1]
  have s : ∀ (w' : World K) c' x l, place w' c' x = some (c.path ++ [k]) → w'.isDir = w.isDir →
      store w' c' x (flat l) = ({ w' with heap := w'.heap ++ [flat l], files := fun q => if q = c.path ++ [k] then some l else w'.files q },
        { c' with mem := fun y => if y = x then some w'.heap.length else c'.mem y }, true) := by
    intro w' c' x l h1 h2
    unfold store update make toFile
    simp only [List.getElem?_append_right (Nat.le_refl _), Nat.sub_self, List.getElem?_cons_zero]
    rw [show place { w' with heap := w'.heap ++ [flat l] } c' x = place w' c' x from rfl, h1]
    simp only [h2, hn, Bool.false_eq_true, if_false]
    rfl
  refine ⟨_, _, _, _, s w c k u (p1 _ _ rfl rfl) rfl, s _ _ ('.' :: '/' :: k) v (p2 _ _ rfl rfl) rfl, ?_, ?_⟩
  · have ne : k ≠ '.' :: '/' :: k := by
      intro e
      have := congrArg List.length e
      simp only [List.length_cons] at this
      omega
    unfold answer get
    simp [ne]
  · rw [answer_again, fileOf_eq (p1 w c rfl rfl)]
    simp
    all_goals rfl

/-- **C132**, refuted: keys like the paths of the datasets, which begin with `/`, leave the directory of the cache.  What was stored for one run is returned by the
cache of any other. -/
theorem C132_absolute_fails (w w' : World K) (c c' : Tiny) (k : Key) (l : List K) (h : store w c ('/' :: k) (flat l) = (w', c', true)) (path : Path) :
    answer w' ⟨path, fun _ => none⟩ ('/' :: k) = some (flat l) := by
  obtain ⟨p, hp, hd, rfl, rfl⟩ := store_ok w c h
  have := answer_again (K := K) { w with heap := w.heap ++ [flat l], files := fun q => if q = p then some (flat l).data else w.files q } ⟨path, fun _ => none⟩ ('/' :: k)
  refine this.trans ?_
  have e : place w ⟨path, fun _ => none⟩ ('/' :: k) = some p := by
    rw [← hp]
    unfold place
    simp
  rw [fileOf_eq e]
  simp [flat]
  all_goals rfl

/-- **C132**, refuted: two programs with caches in the same directory.  Once the first has the value of a key, it does not see what the second stores. -/
theorem C132_stale_fails (w w1 w2 : World K) (c c1 d d1 : Tiny) (k : Key) (u v : List K) (h : store w c k (flat u) = (w1, c1, true)) (hp : d.path = c.path)
    (h' : store w1 d k (flat v) = (w2, d1, true)) : answer w2 c1 k = some (flat u) ∧ answer w2 (again c1) k = some (flat v) := by
  obtain ⟨p, q1, q2, rfl, rfl⟩ := store_ok w c h
  obtain ⟨p', q3, q4, rfl, rfl⟩ := store_ok _ d h'
  have e : p' = p := by
    have : place { w with heap := w.heap ++ [flat u], files := fun q => if q = p then some (flat u).data else w.files q } d k = place w c k := by
      unfold place
      rw [hp]
    rw [q3, q1] at this
    exact Option.some.inj this
  subst e
  constructor
  · unfold answer get
    simp
  · rw [answer_again, fileOf_eq q1]
    simp [flat]
    all_goals rfl

/-- **C132**, refuted: the cache keeps no copy.  If the array that was stored is changed by its owner, the cache returns the changed one, though a newly made cache
returns the old one. -/
theorem C132_changed_fails (w w' : World K) (c c' : Tiny) (k : Key) (u v : List K) (h : store w c k (flat u) = (w', c', true)) :
    answer (assign w' w.heap.length (flat v)) c' k = some (flat v) ∧ answer (assign w' w.heap.length (flat v)) (again c') k = some (flat u) := by
  obtain ⟨p, q1, q2, rfl, rfl⟩ := store_ok w c h
  constructor
  · unfold answer get assign
    simp
  · rw [answer_again, fileOf_eq q1]
    simp [flat, assign]
    all_goals rfl

/-- **C132**, refuted: storing is not atomic.  A value is stored in place of another; if the program ends meanwhile, at any point after the start and before the
end of writing, the old value is gone and the new one is not there. -/
theorem C132_crash_fails (w w' : World K) (c c' : Tiny) (k : Key) (u v : List K) (h : store w c k (flat u) = (w', c', true)) (n : Nat) (hn : n < v.length)
    (hu : u.length ≠ n) : ∃ a, answer (interrupted w' c' k (flat v) n) (again c') k = some a ∧ a ≠ flat u ∧ a ≠ flat v := by
  obtain ⟨p, q1, q2, rfl, rfl⟩ := store_ok w c h
  refine ⟨flat (v.take n), ?_, ?_, ?_⟩
  · rw [answer_again]
    have e : place (K := K) { w with heap := w.heap ++ [flat u], files := fun q => if q = p then some (flat u).data else w.files q }
        { c with mem := fun x => if x = k then some w.heap.length else c.mem x } k = some p := q1
    unfold interrupted toFile
    rw [e]
    dsimp only
    rw [if_neg (by rw [q2]; simp), Option.getD_some, fileOf_eq q1]
    simp [flat]
    all_goals rfl
  · intro e
    have := congrArg (fun a => a.data.length) e
    simp only [flat, List.length_take] at this
    omega
  · intro e
    have := congrArg (fun a => a.data.length) e
    simp only [flat, List.length_take] at this
    omega

/-- C132: every import of the library puts a number into a directory for all users, in place of what was stored there. -/
theorem C132_import (w w' : World K) (x : K) (h : onImport w x = .ok w') :
    w'.files ["tmp".toList, "tinycache".toList, "test".toList] = some [x] := by
  unfold onImport create at h
  split_ifs at h with e
  · cases h
  · rw [Res.ok_bind] at h
    dsimp only at h
    split_ifs at h with d
    obtain rfl := Res.ok.inj h
    generalize hs : store _ _ _ _ = o at d ⊢
    obtain ⟨w1, c1, t⟩ := o
    dsimp only at d
    subst d
    obtain ⟨p, q1, q2, rfl, rfl⟩ := store_ok _ _ hs
    have : p = ["tmp".toList, "tinycache".toList, "test".toList] := by
      rw [place_simple _ _ ⟨by decide, by decide, by decide, by decide⟩ (by simp)] at q1
      exact (Option.some.inj q1).symm
    subst this
    unfold get
    dsimp only
    rw [if_pos rfl]
    dsimp only
    rw [if_pos rfl]

/-- A file system in which all places next to the root and below these are directories, with caches in some of them. -/
def exWorld : World Nat := ⟨fun p => decide (p.length ≤ 2), fun _ => none, []⟩
def exCaches : Nat → Tiny := fun i => ⟨["runs".toList, List.replicate (i + 1) 'x'], fun _ => none⟩

theorem ex_fresh : Fresh exWorld exCaches where
  empty _ _ := rfl
  apart i j h := by
    simp only [exCaches, List.cons.injEq, true_and, and_true] at h
    have := congrArg List.length h
    simpa using this
  dirs i n := by
    simp only [exWorld, exCaches, List.length_take, decide_eq_true_eq]
    exact Nat.min_le_right _ _
  leaves i k _ := by simp [exWorld, exCaches]
  free _ _ := rfl

/-- Non-vacuity: two caches with the same key, a restart and a crash. -/
example : happens exWorld exCaches [.store 0 "E".toList [1, 2], .store 1 "E".toList [3], .restart 0, .get 0 "E".toList, .crash 0 "E".toList [4, 5, 6] 2,
    .get 0 "E".toList, .get 1 "E".toList, .get 1 "H".toList] = .ok [flat [1, 2], flat [4, 5], flat [3], flat []] := by
  rw [C132_kept_partial _ _ ex_fresh]
  · rfl
  · simp [Ev.Plain, Simple]

/-- A table is stored and comes back as a list. -/
example : ∃ w c, store exWorld (exCaches 0) "E".toList ⟨[2, 2], [1, 2, 3, 4]⟩ = (w, c, true) ∧ answer w c "E".toList = some ⟨[2, 2], [1, 2, 3, 4]⟩ ∧
    answer w (again c) "E".toList = some ⟨[4], [1, 2, 3, 4]⟩ := ⟨_, _, rfl, rfl, rfl⟩

/-- A key in a directory that is not there. -/
example : ∃ w c, store exWorld (exCaches 0) "E/r".toList (flat [1]) = (w, c, false) ∧ answer w (again c) "E/r".toList = some (flat []) := ⟨_, _, rfl, rfl⟩

/-- A key that leaves the directory. -/
example : ∃ w c, store (⟨fun p => decide (p ∈ [[], ["a".toList], ["a".toList, "b".toList]]), fun _ => none, []⟩ : World Nat) ⟨["a".toList, "b".toList], fun _ => none⟩
    "../E".toList (flat [1]) = (w, c, true) ∧ contains w (again c) "../E".toList = true := ⟨_, _, rfl, rfl⟩

/-- The import succeeds. -/
example : ∃ w, onImport ⟨fun p => decide (p = []), fun _ => none, []⟩ (150 : Nat) = .ok w := ⟨_, rfl⟩

end Cache
end Pico
