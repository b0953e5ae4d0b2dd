import Verif.Model.Persist
import Mathlib.Tactic.Linarith
import Mathlib.Tactic.IntervalCases
import Mathlib.Data.List.Basic

/-!
Lemmas about the JSON writer and reader of `Model/Persist`.
-/

namespace Auburn
namespace Json

/-! ### whitespace and token level -/

theorem skipWs_append {s q : List Char} {c : Char} {t : List Char} (h : skipWs s = c :: t) :
    skipWs (s ++ q) = c :: t ++ q := by
  unfold skipWs at *
  induction s with
  | nil => simp at h
  | cons a s ih =>
    rw [List.dropWhile_cons] at h
    rw [List.cons_append, List.dropWhile_cons]
    split_ifs at h ⊢ with ha
    · exact ih h
    · injection h with h1 h2
      subst h1 h2; rfl

theorem skipWs_cons_of {c : Char} {t : List Char} (h : isWs c = false) : skipWs (c :: t) = c :: t := by
  unfold skipWs; rw [List.dropWhile_cons]; simp [h]

theorem takeWhile_append_of_dropWhile {p : Char → Bool} {s q : List Char}
    (h : s.dropWhile p ≠ []) :
    (s ++ q).takeWhile p = s.takeWhile p ∧ (s ++ q).dropWhile p = s.dropWhile p ++ q := by
  induction s with
  | nil => simp at h
  | cons a s ih =>
    rw [List.dropWhile_cons] at h
    simp only [List.cons_append, List.takeWhile_cons, List.dropWhile_cons]
    split_ifs at h ⊢ with ha
    · exact ⟨by rw [(ih h).1], (ih h).2⟩
    · exact ⟨rfl, rfl⟩

theorem parseNat_ext {s q : List Char} {n : Nat} {r : List Char} (h : parseNat s = some (n, r))
    (hr : r ≠ []) : parseNat (s ++ q) = some (n, r ++ q) := by
  unfold parseNat at *
  have hd : s.dropWhile isDigit = r := by
    split at h <;> simp_all
  have h2 := takeWhile_append_of_dropWhile (p := isDigit) (s := s) (q := q) (by rw [hd]; exact hr)
  rw [h2.1, h2.2]
  split at h <;> simp_all

theorem parseInt_ext {s q : List Char} {n : Int} {r : List Char} (h : parseInt s = some (n, r))
    (hr : r ≠ []) : parseInt (s ++ q) = some (n, r ++ q) := by
  unfold parseInt at h
  split at h
  · rename_i t
    rw [Option.map_eq_some_iff] at h
    obtain ⟨⟨a, b⟩, h1, h2⟩ := h
    simp only [Prod.mk.injEq] at h2
    obtain ⟨rfl, rfl⟩ := h2
    show (parseNat (t ++ q)).map _ = _
    rw [parseNat_ext h1 hr]; rfl
  · rename_i hne
    rw [Option.map_eq_some_iff] at h
    obtain ⟨⟨a, b⟩, h1, h2⟩ := h
    simp only [Prod.mk.injEq] at h2
    obtain ⟨rfl, rfl⟩ := h2
    have : s ≠ [] := by rintro rfl; simp [parseNat] at h1
    obtain ⟨c, t, rfl⟩ := List.exists_cons_of_ne_nil this
    have h3 := parseNat_ext (q := q) h1 hr
    rw [List.cons_append] at h3 ⊢
    unfold parseInt
    split
    · rename_i h4; injection h4 with h5 h6; exact absurd (by rw [h5]) (hne t)
    · rw [h3]; rfl

theorem parseInt_ne_nil {s : List Char} {x} (h : parseInt s = some x) : s ≠ [] := by
  rintro rfl; simp [parseInt, parseNat] at h

theorem parseKey_ext {s q : List Char} {k r : List Char} (h : parseKey s = some (k, r)) :
    parseKey (s ++ q) = some (k, r ++ q) := by
  unfold parseKey at h
  split at h
  · rename_i t
    have hd : t.dropWhile keyChar = '"' :: r ∧ t.takeWhile keyChar = k := by
      split at h <;> simp_all
    have h2 := takeWhile_append_of_dropWhile (p := keyChar) (s := t) (q := q) (by rw [hd.1]; simp)
    simp only [List.cons_append, parseKey]
    rw [h2.2, h2.1, hd.1, hd.2]; rfl
  · simp at h

theorem parseKey_ne_nil {s : List Char} {x} (h : parseKey s = some x) : s ≠ [] := by
  rintro rfl; simp [parseKey] at h

/-- not a number -/
def IsNum : Json → Prop
  | .num _ => True
  | _ => False

/-- Reading is stable under extending the text (and the recursion bound). -/
theorem parse_ext (n : Nat) :
    (∀ m s q j r, n ≤ m → parseVal n s = some (j, r) → (r ≠ [] ∨ ¬ j.IsNum) →
      parseVal m (s ++ q) = some (j, r ++ q)) ∧
    (∀ m s q j r, n ≤ m → parseElems n s = some (j, r) → parseElems m (s ++ q) = some (j, r ++ q)) ∧
    (∀ m s q j r, n ≤ m → parseFields n s = some (j, r) →
      parseFields m (s ++ q) = some (j, r ++ q)) := by
  induction n with
  | zero => simp [parseVal, parseElems, parseFields]
  | succ n ih =>
    obtain ⟨ihv, ihe, ihf⟩ := ih
    refine ⟨?_, ?_, ?_⟩
    · intro m s q j r hm h hr
      obtain ⟨m, rfl⟩ : ∃ m', m = m' + 1 := ⟨m - 1, by omega⟩
      simp only [parseVal] at h ⊢
      split at h
      · rename_i t hs
        rw [skipWs_append hs]
        simp only [List.cons_append]
        split at h
        · rename_i r' ht
          rw [skipWs_append ht]
          simp only [Option.some.injEq, Prod.mk.injEq] at h
          obtain ⟨rfl, rfl⟩ := h
          rfl
        · rename_i hne
          rw [Option.map_eq_some_iff] at h
          obtain ⟨⟨a, b⟩, h1, h2⟩ := h
          simp only [Prod.mk.injEq] at h2
          obtain ⟨rfl, rfl⟩ := h2
          have h3 := ihe m t q a b (by omega) h1
          cases ht : skipWs t with
          | nil =>
            exact absurd h1 (by
              cases n with
              | zero => simp [parseElems]
              | succ n =>
                cases n with
                | zero => simp [parseElems, parseVal]
                | succ n => simp [parseElems, parseVal, ht, parseInt, parseNat])
          | cons c t' =>
            rw [skipWs_append ht]
            split
            · rename_i h4; injection h4 with h5 h6; exact absurd (by rw [ht, h5]) (hne t')
            · rw [h3]; rfl
      · rename_i t hs
        rw [skipWs_append hs]
        simp only [List.cons_append]
        split at h
        · rename_i r' ht
          rw [skipWs_append ht]
          simp only [Option.some.injEq, Prod.mk.injEq] at h
          obtain ⟨rfl, rfl⟩ := h
          rfl
        · rename_i hne
          rw [Option.map_eq_some_iff] at h
          obtain ⟨⟨a, b⟩, h1, h2⟩ := h
          simp only [Prod.mk.injEq] at h2
          obtain ⟨rfl, rfl⟩ := h2
          have h3 := ihf m t q a b (by omega) h1
          cases ht : skipWs t with
          | nil =>
            exact absurd h1 (by
              cases n with
              | zero => simp [parseFields]
              | succ n => simp [parseFields, ht, parseKey])
          | cons c t' =>
            rw [skipWs_append ht]
            split
            · rename_i h4; injection h4 with h5 h6; exact absurd (by rw [ht, h5]) (hne t')
            · rw [h3]; rfl
      · rename_i h1 h2
        rw [Option.map_eq_some_iff] at h
        obtain ⟨⟨a, b⟩, h3, h4⟩ := h
        simp only [Prod.mk.injEq] at h4
        obtain ⟨rfl, rfl⟩ := h4
        have hb : b ≠ [] := hr.resolve_right (by simp [IsNum])
        have h5 := parseInt_ext (q := q) h3 hb
        cases ht : skipWs s with
        | nil => exact absurd ht (parseInt_ne_nil h3)
        | cons c t' =>
          rw [ht] at h5
          rw [skipWs_append ht]
          split
          · rename_i h4; injection h4 with h5 h6; exact absurd (by rw [ht, h5]) (h1 t')
          · rename_i h4; injection h4 with h5 h6; exact absurd (by rw [ht, h5]) (h2 t')
          · rw [h5]; rfl
    · intro m s q j r hm h
      obtain ⟨m, rfl⟩ : ∃ m', m = m' + 1 := ⟨m - 1, by omega⟩
      simp only [parseElems] at h ⊢
      split at h
      · simp at h
      · rename_i v r1 hv
        split at h
        · rename_i r' hs
          have hr1 : r1 ≠ [] := by rintro rfl; simp [skipWs] at hs
          rw [ihv m s q v r1 (by omega) hv (Or.inl hr1)]
          rw [Option.map_eq_some_iff] at h
          obtain ⟨⟨a, b⟩, h1, h2⟩ := h
          simp only [Prod.mk.injEq] at h2
          obtain ⟨rfl, rfl⟩ := h2
          simp only [skipWs_append hs, List.cons_append]
          rw [ihe m r' q a b (by omega) h1]; rfl
        · rename_i r' hs
          have hr1 : r1 ≠ [] := by rintro rfl; simp [skipWs] at hs
          rw [ihv m s q v r1 (by omega) hv (Or.inl hr1)]
          simp only [Option.some.injEq, Prod.mk.injEq] at h
          obtain ⟨rfl, rfl⟩ := h
          simp only [skipWs_append hs, List.cons_append]
        · simp at h
    · intro m s q j r hm h
      obtain ⟨m, rfl⟩ : ∃ m', m = m' + 1 := ⟨m - 1, by omega⟩
      simp only [parseFields] at h ⊢
      split at h
      · simp at h
      · rename_i k r1 hk
        have hk' : parseKey (skipWs (s ++ q)) = some (k, r1 ++ q) := by
          cases ht : skipWs s with
          | nil => exact absurd ht (parseKey_ne_nil hk)
          | cons c t' =>
            rw [skipWs_append ht]
            exact parseKey_ext (by rw [← ht]; exact hk)
        rw [hk']
        split at h
        · rename_i r2 hs
          simp only [skipWs_append hs, List.cons_append]
          split at h
          · simp at h
          · rename_i v r3 hv
            split at h
            · rename_i r' hs
              have hr1 : r3 ≠ [] := by rintro rfl; simp [skipWs] at hs
              rw [ihv m r2 q v r3 (by omega) hv (Or.inl hr1)]
              rw [Option.map_eq_some_iff] at h
              obtain ⟨⟨a, b⟩, h1, h2⟩ := h
              simp only [Prod.mk.injEq] at h2
              obtain ⟨rfl, rfl⟩ := h2
              simp only [skipWs_append hs, List.cons_append]
              rw [ihf m r' q a b (by omega) h1]; rfl
            · rename_i r' hs
              have hr1 : r3 ≠ [] := by rintro rfl; simp [skipWs] at hs
              rw [ihv m r2 q v r3 (by omega) hv (Or.inl hr1)]
              simp only [Option.some.injEq, Prod.mk.injEq] at h
              obtain ⟨rfl, rfl⟩ := h
              simp only [skipWs_append hs, List.cons_append]
            · simp at h
        · simp at h

/-! ### reading back what was written -/

mutual
/-- field names that need no escaping: no quote, no backslash, no control character -/
def Plain : Json → Prop
  | .num _ => True
  | .arr l => PlainElems l
  | .obj l => PlainFields l
/-- elementwise -/
def PlainElems : List Json → Prop
  | [] => True
  | v :: vs => Plain v ∧ PlainElems vs
/-- elementwise -/
def PlainFields : List (List Char × Json) → Prop
  | [] => True
  | (k, v) :: vs => (∀ c ∈ k, c ≠ '"' ∧ c ≠ '\\' ∧ ¬ c.toNat < 32) ∧ Plain v ∧ PlainFields vs
end

theorem isDigit_digit {n : Nat} (h : n < 10) : isDigit (digit n) = true ∧ (digit n).toNat = 48 + n := by
  interval_cases n <;> decide

theorem natText_digits (n : Nat) : ∀ c ∈ natText n, isDigit c = true := by
  induction n using Nat.strong_induction_on with
  | _ n ih =>
    rw [natText]
    split_ifs with h
    · intro c hc
      rw [List.mem_singleton] at hc
      subst hc
      exact (isDigit_digit h).1
    · intro c hc
      rw [List.mem_append, List.mem_singleton] at hc
      rcases hc with hc | rfl
      · exact ih (n / 10) (by omega) c hc
      · exact (isDigit_digit (by omega)).1

theorem natText_ne_nil (n : Nat) : natText n ≠ [] := by
  rw [natText]; split_ifs <;> simp

theorem digitsVal_append (l : List Char) (c : Char) :
    digitsVal (l ++ [c]) = 10 * digitsVal l + (c.toNat - 48) := by
  simp [digitsVal]

theorem digitsVal_natText (n : Nat) : digitsVal (natText n) = n := by
  induction n using Nat.strong_induction_on with
  | _ n ih =>
    rw [natText]
    split_ifs with h
    · simp [digitsVal, (isDigit_digit h).2]
    · rw [digitsVal_append, ih (n / 10) (by omega), (isDigit_digit (by omega)).2]
      omega

theorem natText_head {n : Nat} (h : n ≠ 0) : ∀ t, natText n ≠ '0' :: t := by
  induction n using Nat.strong_induction_on with
  | _ n ih =>
    intro t
    rw [natText]
    split_ifs with h1
    · intro h2
      injection h2 with h3 h4
      have := (isDigit_digit h1).2
      rw [h3] at this
      have : 48 + n = 48 := by rw [← this]; decide
      omega
    · intro h2
      obtain ⟨c, l, hcl⟩ := List.exists_cons_of_ne_nil (natText_ne_nil (n / 10))
      rw [hcl] at h2
      injection h2 with h3 h4
      exact ih (n / 10) (by omega) (by omega) l (by rw [hcl, h3])

/-- the text does not start with a digit -/
def NoDigit : List Char → Prop
  | [] => True
  | c :: _ => isDigit c = false

theorem span_append {p : Char → Bool} {l r : List Char} (hl : ∀ c ∈ l, p c = true)
    (hr : match r with | [] => True | c :: _ => p c = false) :
    (l ++ r).takeWhile p = l ∧ (l ++ r).dropWhile p = r := by
  induction l with
  | nil =>
    cases r with
    | nil => simp
    | cons c r => simp_all
  | cons a l ih =>
    have h1 := hl a (by simp)
    have h2 := ih fun c hc => hl c (by simp [hc])
    simp [h1, h2.1, h2.2]

theorem parseNat_natText (n : Nat) {r : List Char} (hr : NoDigit r) :
    parseNat (natText n ++ r) = some (n, r) := by
  have h := span_append (p := isDigit) (natText_digits n) (r := r) (by cases r <;> exact hr)
  unfold parseNat
  rw [h.1, h.2]
  split
  · rename_i h1; exact absurd h1 (natText_ne_nil n)
  · rename_i a l h1
    by_cases hn : n = 0
    · subst hn
      rw [natText] at h1
      simp at h1
    · exact absurd h1 (natText_head hn _)
  · rw [digitsVal_natText]

theorem natText_cons (n : Nat) : ∃ c t, natText n = c :: t ∧ isDigit c = true := by
  obtain ⟨c, t, h⟩ := List.exists_cons_of_ne_nil (natText_ne_nil n)
  exact ⟨c, t, h, natText_digits n c (by rw [h]; simp)⟩

theorem parseInt_intText (n : Int) {r : List Char} (hr : NoDigit r) :
    parseInt (intText n ++ r) = some (n, r) := by
  cases n with
  | ofNat n =>
    obtain ⟨c, t, h, hc⟩ := natText_cons n
    have h1 := parseNat_natText n hr
    simp only [intText]
    rw [h] at h1 ⊢
    rw [List.cons_append] at h1 ⊢
    unfold parseInt
    split
    · rename_i h2
      injection h2 with h3 h4
      subst h3
      exact absurd hc (by decide)
    · rw [h1]; rfl
  | negSucc n =>
    simp only [intText, List.cons_append, parseInt]
    rw [parseNat_natText _ hr]
    simp [Int.negSucc_eq]

theorem intText_head (n : Int) : ∃ c t, intText n = c :: t ∧ (c = '-' ∨ isDigit c = true) := by
  cases n with
  | ofNat n =>
    obtain ⟨c, t, h, hc⟩ := natText_cons n
    exact ⟨c, t, h, Or.inr hc⟩
  | negSucc n => exact ⟨'-', _, rfl, Or.inl rfl⟩

/-- first characters of values -/
def StartsVal (c : Char) : Prop := c = '[' ∨ c = '{' ∨ c = '-' ∨ isDigit c = true

theorem StartsVal.spec {c : Char} (h : StartsVal c) : isWs c = false ∧ c ≠ ']' ∧ c ≠ '}' := by
  rcases h with rfl | rfl | rfl | h
  · decide
  · decide
  · decide
  · simp only [isDigit, Bool.and_eq_true, decide_eq_true_eq] at h
    refine ⟨?_, ?_, ?_⟩
    · simp only [isWs, Bool.or_eq_false_iff, decide_eq_false_iff_not]
      refine ⟨⟨⟨?_, ?_⟩, ?_⟩, ?_⟩ <;> rintro rfl <;> revert h <;> decide
    · rintro rfl; revert h; decide
    · rintro rfl; revert h; decide

theorem print_head (j : Json) : ∃ c t, j.print = c :: t ∧ StartsVal c := by
  cases j with
  | num n =>
    obtain ⟨c, t, h, hc⟩ := intText_head n
    exact ⟨c, t, h, Or.inr (Or.inr hc)⟩
  | arr l => exact ⟨_, _, rfl, Or.inl rfl⟩
  | obj l => exact ⟨_, _, rfl, Or.inr (Or.inl rfl)⟩

theorem tail_elems_noDigit (vs : List Json) (r : List Char) : NoDigit (printElemsTail vs ++ r) := by
  cases vs <;> simp only [printElemsTail, List.cons_append, NoDigit] <;> decide

theorem tail_fields_noDigit (vs : List (List Char × Json)) (r : List Char) :
    NoDigit (printFieldsTail vs ++ r) := by
  cases vs <;> simp only [printFieldsTail, List.cons_append, NoDigit] <;> decide

theorem printElems_tail (v : Json) (vs : List Json) :
    printElemsTail (v :: vs) = ',' :: printElems (v :: vs) := by
  simp only [printElemsTail, printElems]

theorem printFields_tail (e : List Char × Json) (vs : List (List Char × Json)) :
    printFieldsTail (e :: vs) = ',' :: printFields (e :: vs) := by
  obtain ⟨k, v⟩ := e
  simp only [printFieldsTail, printFields]

theorem tailElems_pos (vs : List Json) : 0 < (printElemsTail vs).length := by
  cases vs <;> simp [printElemsTail]

theorem tailFields_pos (vs : List (List Char × Json)) : 0 < (printFieldsTail vs).length := by
  cases vs <;> simp [printFieldsTail]

theorem parseVal_arr {n : Nat} {t : List Char} (h : ∀ r, skipWs t ≠ ']' :: r) :
    parseVal (n + 1) ('[' :: t) = (parseElems n t).map fun r => (.arr r.1, r.2) := by
  simp only [parseVal, skipWs_cons_of (show isWs '[' = false by decide)]

theorem parseVal_obj {n : Nat} {t : List Char} (h : ∀ r, skipWs t ≠ '}' :: r) :
    parseVal (n + 1) ('{' :: t) = (parseFields n t).map fun r => (.obj r.1, r.2) := by
  simp only [parseVal, skipWs_cons_of (show isWs '{' = false by decide)]

theorem parse_print_aux (n : Nat) :
    (∀ j r, j.Plain → j.print.length ≤ n → NoDigit r → parseVal n (j.print ++ r) = some (j, r)) ∧
    (∀ v vs r, PlainElems (v :: vs) → (printElems (v :: vs)).length ≤ n →
      parseElems n (printElems (v :: vs) ++ r) = some (v :: vs, r)) ∧
    (∀ v vs r, PlainFields (v :: vs) → (printFields (v :: vs)).length ≤ n →
      parseFields n (printFields (v :: vs) ++ r) = some (v :: vs, r)) := by
  induction n with
  | zero =>
    refine ⟨?_, ?_, ?_⟩
    · intro j r _ h _
      obtain ⟨c, t, h1, _⟩ := print_head j
      rw [h1] at h; simp at h
    · intro v vs r _ h
      have := tailElems_pos vs
      simp only [printElems, List.length_append] at h
      omega
    · rintro ⟨k, v⟩ vs r _ h
      simp only [printFields, List.length_cons] at h
      omega
  | succ n ih =>
    obtain ⟨ihv, ihe, ihf⟩ := ih
    refine ⟨?_, ?_, ?_⟩
    · intro j r hp hl hr
      cases j with
      | num i =>
        obtain ⟨c, t, h, hc⟩ := intText_head i
        have h1 := parseInt_intText i hr
        simp only [print]
        rw [h] at h1 ⊢
        rw [List.cons_append] at h1 ⊢
        have hs : StartsVal c := Or.inr (Or.inr hc)
        unfold parseVal
        rw [skipWs_cons_of hs.spec.1]
        split
        · rename_i h2; injection h2 with h3 _; subst h3
          rcases hc with h | h <;> exact absurd h (by decide)
        · rename_i h2; injection h2 with h3 _; subst h3
          rcases hc with h | h <;> exact absurd h (by decide)
        · rw [h1]; rfl
      | arr l =>
        simp only [print, List.cons_append, List.length_cons] at hl ⊢
        cases l with
        | nil =>
          simp only [parseVal, printElems, skipWs_cons_of (show isWs '[' = false by decide),
            List.cons_append, skipWs_cons_of (show isWs ']' = false by decide)]
          rfl
        | cons v vs =>
          have h1 := ihe v vs r hp (by omega)
          obtain ⟨c, t, h2, h3⟩ := print_head v
          have h4 : printElems (v :: vs) ++ r = c :: (t ++ (printElemsTail vs ++ r)) := by
            simp [printElems, h2]
          rw [parseVal_arr, h1]
          · rfl
          · intro r' h5
            rw [h4, skipWs_cons_of h3.spec.1] at h5
            injection h5 with h6 _
            exact h3.spec.2.1 h6
      | obj l =>
        simp only [print, List.cons_append, List.length_cons] at hl ⊢
        cases l with
        | nil =>
          simp only [parseVal, printFields, skipWs_cons_of (show isWs '{' = false by decide),
            List.cons_append, skipWs_cons_of (show isWs '}' = false by decide)]
          rfl
        | cons v vs =>
          have h1 := ihf v vs r hp (by omega)
          rw [parseVal_obj, h1]
          · rfl
          · intro r' h5
            obtain ⟨k, v⟩ := v
            simp only [printFields, List.cons_append, skipWs_cons_of (show isWs '"' = false by decide)] at h5
            injection h5 with h6 _
            exact absurd h6 (by decide)
    · intro v vs r hp hl
      simp only [PlainElems] at hp
      simp only [printElems, List.length_append] at hl
      have h1 := ihv v (printElemsTail vs ++ r) hp.1 (by have := tailElems_pos vs; omega)
        (tail_elems_noDigit vs r)
      simp only [parseElems, printElems, List.append_assoc]
      rw [h1]
      cases vs with
      | nil => simp only [printElemsTail, List.cons_append, skipWs_cons_of (show isWs ']' = false by decide)]; rfl
      | cons w ws =>
        have h2 := ihe w ws r hp.2 (by
          rw [printElems_tail, List.length_cons] at hl
          obtain ⟨c, t, h3, _⟩ := print_head v
          rw [h3, List.length_cons] at hl; omega)
        simp only [printElems_tail, List.cons_append, skipWs_cons_of (show isWs ',' = false by decide)]
        rw [h2]; rfl
    · rintro ⟨k, v⟩ vs r hp hl
      simp only [PlainFields] at hp
      simp only [printFields, List.length_append, List.length_cons] at hl
      have h1 := ihv v (printFieldsTail vs ++ r) hp.2.1 (by have := tailFields_pos vs; omega)
        (tail_fields_noDigit vs r)
      have hkc : ∀ c ∈ k, keyChar c = true := fun c hc => by
        have := hp.1 c hc
        simp only [keyChar, Bool.and_eq_true, decide_eq_true_eq]
        exact ⟨⟨this.1, this.2.1⟩, by omega⟩
      have hk : parseKey ('"' :: (k ++ ('"' :: ':' :: (print v ++ (printFieldsTail vs ++ r))))) =
          some (k, ':' :: (print v ++ (printFieldsTail vs ++ r))) := by
        have h := span_append (p := keyChar) hkc (r := '"' :: ':' :: (print v ++ (printFieldsTail vs ++ r)))
          (by show keyChar '"' = false; decide)
        simp only [parseKey]
        rw [h.1, h.2]
        rfl
      simp only [parseFields, printFields, List.append_assoc, List.cons_append,
        skipWs_cons_of (show isWs '"' = false by decide)]
      rw [hk]
      simp only [skipWs_cons_of (show isWs ':' = false by decide)]
      rw [h1]
      cases vs with
      | nil => simp only [printFieldsTail, List.cons_append, skipWs_cons_of (show isWs '}' = false by decide)]; rfl
      | cons w ws =>
        have h2 := ihf w ws r hp.2.2 (by
          rw [printFields_tail, List.length_cons] at hl; omega)
        simp only [printFields_tail, List.cons_append, skipWs_cons_of (show isWs ',' = false by decide)]
        rw [h2]; rfl

theorem parse_print {j : Json} (h : j.Plain) : parse j.print = some j := by
  unfold parse
  have := (parse_print_aux (j.print.length + 1)).1 j [] h (by omega) trivial
  rw [List.append_nil] at this
  rw [this]; rfl

/-- A strict prefix of the text of an object is not a JSON document. -/
theorem parse_prefix {l : List (List Char × Json)} (h : (Json.obj l).Plain) {p q : List Char}
    (hq : q ≠ []) (hpq : p ++ q = (Json.obj l).print) : parse p = none := by
  cases hp : parse p with
  | none => rfl
  | some v =>
    exfalso
    unfold parse at hp
    split at hp
    · rename_i v' r hv
      split_ifs at hp with hr
      injection hp with hp
      subst hp
      have hnum : ¬ v'.IsNum := by
        cases p with
        | nil => simp [parseVal, skipWs, parseInt, parseNat] at hv
        | cons c t =>
          simp only [print, List.cons_append] at hpq
          injection hpq with h1 h2
          subst h1
          simp only [parseVal, skipWs_cons_of (show isWs '{' = false by decide)] at hv
          split at hv
          · simp only [Option.some.injEq, Prod.mk.injEq] at hv
            rw [← hv.1]; exact id
          · rw [Option.map_eq_some_iff] at hv
            obtain ⟨a, _, h4⟩ := hv
            injection h4 with h5 h6
            rw [← h5]
            exact id
      have h1 := (parse_ext (p.length + 1)).1 (p.length + q.length + 1) p q v' r (by omega) hv
        (Or.inr hnum)
      have h2 := (parse_print_aux (p.length + q.length + 1)).1 (.obj l) [] h
        (by rw [← hpq, List.length_append]; omega) trivial
      rw [List.append_nil, ← hpq, h1] at h2
      simp only [Option.some.injEq, Prod.mk.injEq, List.append_eq_nil_iff] at h2
      exact hq h2.2.2
    · simp at hp

theorem plainElems_map {α : Type} {f : α → Json} {l : List α} (h : ∀ x, (f x).Plain) :
    PlainElems (l.map f) := by
  induction l with
  | nil => trivial
  | cons a l ih => exact ⟨h a, ih⟩

theorem mapM_map {α : Type} {f : α → Json} {g : Json → Option α} (h : ∀ x, g (f x) = some x)
    (l : List α) : (l.map f).mapM g = some l := by
  induction l with
  | nil => rfl
  | cons a l ih => simp [h, ih]

theorem toU8?_num (b : UInt8) : (Json.num b.toNat).toU8? = some b := by
  have h := b.toNat_lt
  have h1 : (Json.num (b.toNat : Int)).toNat? = some b.toNat := rfl
  unfold toU8?
  rw [h1]
  simp [show b.toNat < 256 from h]

end Json

/-- the representation of positions round-trips and its field names need no escaping -/
structure V2iCodec.Ok (C : V2iCodec) : Prop where
  dec_enc : ∀ p, C.dec (C.enc p) = some p
  plain : ∀ p, (C.enc p).Plain

theorem Array2d.ofJson_toJson (a : Array2d) : Array2d.ofJson a.toJson = some a := by
  have h1 : a.toJson.field "dims".toList = some (.arr [.num a.width, .num a.height]) := rfl
  have h2 : a.toJson.field "dim_strides".toList = some (.arr [.num 1, .num a.width]) := rfl
  have h3 : a.toJson.field "data".toList = some (.arr (a.data.map fun b => .num b.toNat)) := rfl
  have h4 : (a.data.map fun b => Json.num b.toNat).mapM Json.toU8? = some a.data :=
    Json.mapM_map Json.toU8?_num _
  unfold Array2d.ofJson
  simp only [h1, h2, h3, Option.bind_eq_bind, Option.bind_some, Json.elems]
  simp only [h4]
  rfl

theorem Array2d.plain_toJson (a : Array2d) : a.toJson.Plain := by
  simp only [Array2d.toJson, Json.Plain, Json.PlainFields, Json.PlainElems]
  refine ⟨by decide, by simp, by decide, by simp, by decide, ?_, trivial⟩
  exact Json.plainElems_map fun _ => by simp [Json.Plain]

theorem Chunk.ofJson_toJson (c : Chunk) : Chunk.ofJson c.toJson = some c := by
  have h1 : c.toJson.field "array2d".toList = some c.array2d.toJson := rfl
  unfold Chunk.ofJson
  simp only [h1, Option.bind_eq_bind, Option.bind_some, Array2d.ofJson_toJson]

theorem Chunk.plain_toJson (c : Chunk) : c.toJson.Plain := by
  simp only [Chunk.toJson, Json.Plain, Json.PlainFields]
  exact ⟨by decide, Array2d.plain_toJson _, trivial⟩

namespace Tilemap

theorem pairOfJson_toJson {C : V2iCodec} (hC : C.Ok) (e : V2i × Chunk) :
    pairOfJson C (pairToJson C e) = some e := by
  simp [pairOfJson, pairToJson, Json.elems, hC.dec_enc, Chunk.ofJson_toJson]

theorem plain_pair {C : V2iCodec} (hC : C.Ok) (e : V2i × Chunk) : (pairToJson C e).Plain := by
  simp only [pairToJson, Json.Plain, Json.PlainElems]
  exact ⟨hC.plain _, Chunk.plain_toJson _, trivial⟩

theorem plain_doc {C : V2iCodec} (hC : C.Ok) (l : List (V2i × Chunk)) :
    (Json.obj [("chunks".toList, .arr (l.map (pairToJson C)))]).Plain := by
  simp only [Json.Plain, Json.PlainFields]
  exact ⟨by decide, Json.plainElems_map (plain_pair hC), trivial⟩

theorem load_saveText {C : V2iCodec} (hC : C.Ok) (l : List (V2i × Chunk)) :
    load C (some (saveText C l)) = some (deserialize l) := by
  unfold load saveText
  simp only [Option.bind_eq_bind, Option.bind_some, Json.parse_print (plain_doc hC l)]
  have h1 : (Json.obj [("chunks".toList, .arr (l.map (pairToJson C)))]).field "chunks".toList =
      some (.arr (l.map (pairToJson C))) := rfl
  simp only [h1, Option.bind_some, Json.elems]
  rw [Json.mapM_map (pairOfJson_toJson hC)]
  rfl

theorem load_prefix {C : V2iCodec} (hC : C.Ok) {l : List (V2i × Chunk)} {p : List Char}
    (hp : p <+: saveText C l) (hne : p ≠ saveText C l) : load C (some p) = none := by
  obtain ⟨q, hq⟩ := hp
  have : Json.parse p = none := Json.parse_prefix (plain_doc hC l) (q := q)
    (by rintro rfl; rw [List.append_nil] at hq; exact hne hq) hq
  unfold load
  simp [this]

theorem SaveReach.inv {text : List Char} {old : Option (List Char)} {s : SaveState}
    (h : SaveReach text old s) :
    match s.pc with
    | .start => s.file = old
    | .writing todo => ∃ c, s.file = some c ∧ c ++ todo = text
    | .returned true => s.file = some text
    | .returned false => s.file = old ∨ ∃ c, s.file = some c ∧ c <+: text := by
  induction h with
  | init => rfl
  | step _ hs ih =>
    cases hs with
    | createErr => exact Or.inl ih
    | create => exact ⟨[], rfl, rfl⟩
    | write =>
      obtain ⟨c, h1, h2⟩ := ih
      simp only [Option.some.injEq] at h1
      subst h1
      exact ⟨_, rfl, by rw [← h2, List.append_assoc]⟩
    | writeErr =>
      obtain ⟨c, h1, h2⟩ := ih
      exact Or.inr ⟨c, h1, ⟨_, h2⟩⟩
    | finish =>
      obtain ⟨c, h1, h2⟩ := ih
      rw [List.append_nil] at h2
      show _ = some text
      rw [← h2]; exact h1

end Tilemap
end Auburn
