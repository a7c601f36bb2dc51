import Verif.BinWord.Spec
/-!
# C08–C12, C17: order, prefixes, subwords, erasing, appending
-/
set_option linter.unusedSectionVars false
namespace Helper.BinWord

theorem get_lt {w : Word} {i : Nat} (h : i < w.length) : get w i = .ok w[i] := by
  simp [get, List.getElem?_eq_getElem h]

/-! ## C08 -/

def ltList : Word → Word → Bool
  | [], [] => false
  | [], _ :: _ => true
  | _ :: _, [] => false
  | a :: w, b :: v => if a ≠ b then !a && b else ltList w v

theorem ltLoop_eq (w v : Word) : ∀ n i, i + n = min w.length v.length →
    ltLoop w v n i = .ok (ltList (w.drop i) (v.drop i)) := by
  intro n
  induction n with
  | zero =>
    intro i h
    rw [ltLoop]
    rcases Nat.lt_trichotomy w.length v.length with hl | hl | hl
    · have h1 : w.drop i = [] := List.drop_of_length_le (by omega)
      have h2 : v.drop i ≠ [] := by simp; omega
      obtain ⟨b, t, h3⟩ := List.exists_cons_of_ne_nil h2
      rw [h1, h3]; simp [ltList, hl]
    · have h1 : w.drop i = [] := List.drop_of_length_le (by omega)
      have h2 : v.drop i = [] := List.drop_of_length_le (by omega)
      rw [h1, h2]; simp [ltList, hl]
    · have h1 : v.drop i = [] := List.drop_of_length_le (by omega)
      have h2 : w.drop i ≠ [] := by simp; omega
      obtain ⟨b, t, h3⟩ := List.exists_cons_of_ne_nil h2
      rw [h1, h3]; simp [ltList]; omega
  | succ n ih =>
    intro i h
    have hw : i < w.length := by omega
    have hv : i < v.length := by omega
    rw [ltLoop, get_lt hw, get_lt hv, List.drop_eq_getElem_cons hw, List.drop_eq_getElem_cons hv, ltList]
    simp only [Res.ok_bind]
    split
    · rfl
    · exact ih (i + 1) (by omega)

theorem ltList_iff (w v : Word) : ltList w v = true ↔ LexLt w v := by
  induction w generalizing v with
  | nil =>
    cases v with
    | nil => simp [ltList, LexLt]
    | cons b v => simp only [ltList, true_iff]; exact .inl ⟨b :: v, by simp, rfl⟩
  | cons a w ih =>
    cases v with
    | nil => simp [ltList, LexLt]
    | cons b v =>
      rw [ltList]
      by_cases hab : a = b
      · subst hab
        simp only [ne_eq, not_true_eq_false, if_false, ih]
        constructor
        · rintro (⟨s, hs, rfl⟩ | ⟨p, s, t, rfl, rfl⟩)
          · exact .inl ⟨s, hs, rfl⟩
          · exact .inr ⟨a :: p, s, t, rfl, rfl⟩
        · rintro (⟨s, hs, h⟩ | ⟨p, s, t, h1, h2⟩)
          · exact .inl ⟨s, hs, by simpa using h⟩
          · cases p with
            | nil => simp at h1 h2; rw [h1.1] at h2; simp at h2
            | cons c p => simp at h1 h2; exact .inr ⟨p, s, t, h1.2, h2.2⟩
      · rw [if_pos hab]
        constructor
        · intro h
          have h : a = false ∧ b = true := by simpa using h
          exact .inr ⟨[], w, v, by rw [h.1]; rfl, by rw [h.2]; rfl⟩
        · rintro (⟨s, hs, h⟩ | ⟨p, s, t, h1, h2⟩)
          · simp at h; exact absurd h.1.symm hab
          · cases p with
            | nil => simp at h1 h2; simp [h1.1, h2.1]
            | cons c p => simp at h1 h2; exact absurd (h1.1.trans h2.1.symm) hab

/-- C08: `operator<` never reads out of bounds and decides the lexicographic order. -/
theorem C08_lexicographic (w v : Word) : ∃ b, lt w v = .ok b ∧ (b = true ↔ LexLt w v) :=
  ⟨_, ltLoop_eq w v _ 0 (by simp), ltList_iff w v⟩

/-- C08: irreflexive. -/
theorem C08_irrefl (w : Word) : lt w w = .ok false := by
  have h : ltList w w = false := by
    induction w with
    | nil => rfl
    | cons a w ih => simp [ltList, ih]
  rw [lt, ltLoop_eq w w _ 0 (by simp)]; simp [h]

/-- C08: transitive. -/
theorem C08_trans {u v w : Word} (h1 : lt u v = .ok true) (h2 : lt v w = .ok true) :
    lt u w = .ok true := by
  rw [lt, ltLoop_eq _ _ _ 0 (by simp)] at h1 h2 ⊢
  simp only [List.drop_zero, Res.ok.injEq] at h1 h2 ⊢
  induction u generalizing v w with
  | nil =>
    cases v with
    | nil => simp [ltList] at h1
    | cons b v => cases w with
      | nil => simp [ltList] at h2
      | cons c w => rfl
  | cons a u ih =>
    cases v with
    | nil => simp [ltList] at h1
    | cons b v =>
      cases w with
      | nil => simp [ltList] at h2
      | cons c w =>
        simp only [ltList] at h1 h2 ⊢
        cases a <;> cases b <;> cases c <;> simp at h1 h2 ⊢
        · exact ih h1 h2
        · exact ih h1 h2

/-- C08: of two distinct words exactly one is less than the other. -/
theorem C08_trichotomy {v w : Word} (h : v ≠ w) :
    (lt v w = .ok true ∧ lt w v = .ok false) ∨ (lt v w = .ok false ∧ lt w v = .ok true) := by
  rw [lt, lt, ltLoop_eq _ _ _ 0 (by simp), ltLoop_eq _ _ _ 0 (by simp)]
  simp only [List.drop_zero, Res.ok.injEq]
  induction v generalizing w with
  | nil =>
    cases w with
    | nil => exact absurd rfl h
    | cons c w => simp [ltList]
  | cons b v ih =>
    cases w with
    | nil => simp [ltList]
    | cons c w =>
      simp only [ltList]
      cases b <;> cases c <;> simp
      · exact ih (by simpa using h)
      · exact ih (by simpa using h)

example : lt [true, false] [true, false, false] = .ok true ∧ lt [true] [false, true, true] = .ok false := by
  decide

/-! ## C09 -/

theorem prefixLoop_eq (w v : Word) (hl : w.length ≤ v.length) : ∀ n i, i + n = w.length →
    ∃ b, prefixLoop w v n i = .ok b ∧ (b = true ↔ ∃ s, v.drop i = w.drop i ++ s) := by
  intro n
  induction n with
  | zero =>
    intro i h
    exact ⟨true, rfl, by simp only [true_iff]; exact ⟨v.drop i, by rw [List.drop_of_length_le (l := w) (by omega)]; rfl⟩⟩
  | succ n ih =>
    intro i h
    have hw : i < w.length := by omega
    have hv : i < v.length := by omega
    rw [prefixLoop, get_lt hw, get_lt hv, List.drop_eq_getElem_cons hw, List.drop_eq_getElem_cons hv]
    simp only [Res.ok_bind]
    by_cases hab : w[i] = v[i]
    · obtain ⟨b, h1, h2⟩ := ih (i + 1) (by omega)
      refine ⟨b, by simpa [hab] using h1, h2.trans ?_⟩
      simp only [List.cons_append, List.cons.injEq, hab, true_and]
    · refine ⟨false, by simp [hab], ?_⟩
      simp only [Bool.false_eq_true, false_iff]
      rintro ⟨s, hs⟩
      simp only [List.cons_append, List.cons.injEq] at hs
      exact hab hs.1.symm

/-- C09: `is_prefix` never reads out of bounds and decides the prefix relation. -/
theorem C09_isPrefix (w v : Word) : ∃ b, isPrefix w v = .ok b ∧ (b = true ↔ ∃ s, v = w ++ s) := by
  unfold isPrefix
  split
  · rename_i h
    refine ⟨false, rfl, ?_⟩
    simp only [Bool.false_eq_true, false_iff]
    rintro ⟨s, rfl⟩
    simp at h; omega
  · rename_i h
    simpa using prefixLoop_eq w v (by omega) w.length 0 (by simp)

theorem isPrefix_iff {w v : Word} : isPrefix w v = .ok true ↔ ∃ s, v = w ++ s := by
  obtain ⟨b, h1, h2⟩ := C09_isPrefix w v
  rw [h1, ← h2]; simp

/-- C09: a partial order. -/
theorem C09_refl (w : Word) : isPrefix w w = .ok true := isPrefix_iff.2 ⟨[], by simp⟩

theorem C09_antisymm {w v : Word} (h1 : isPrefix w v = .ok true) (h2 : isPrefix v w = .ok true) : w = v := by
  obtain ⟨s, rfl⟩ := isPrefix_iff.1 h1
  obtain ⟨t, ht⟩ := isPrefix_iff.1 h2
  have hs : s = [] := by
    have := congrArg List.length ht
    rw [List.length_append, List.length_append] at this
    exact List.length_eq_zero_iff.1 (by omega)
  simp [hs]

theorem C09_trans {u v w : Word} (h1 : isPrefix u v = .ok true) (h2 : isPrefix v w = .ok true) :
    isPrefix u w = .ok true := by
  obtain ⟨s, rfl⟩ := isPrefix_iff.1 h1
  obtain ⟨t, rfl⟩ := isPrefix_iff.1 h2
  exact isPrefix_iff.2 ⟨s ++ t, by simp⟩

example : isPrefix [true, false] [true, false, true] = .ok true ∧ isPrefix [true, true] [true] = .ok false := by
  decide

/-! ## C10 -/

theorem matchLoop_eq (w v : Word) (i : Nat) (hi : i + w.length ≤ v.length) : ∀ n j, j + n = w.length →
    ∃ j', matchLoop w v i n j = .ok j' ∧ j' ≤ w.length ∧
      (j' = w.length ↔ ∃ s, v.drop (i + j) = w.drop j ++ s) := by
  intro n
  induction n with
  | zero =>
    intro j h
    refine ⟨j, rfl, by omega, ?_⟩
    have : j = w.length := by omega
    simp [this]
  | succ n ih =>
    intro j h
    have hw : j < w.length := by omega
    have hv : i + j < v.length := by omega
    rw [matchLoop, get_lt hw, get_lt hv, List.drop_eq_getElem_cons hw, List.drop_eq_getElem_cons hv]
    simp only [Res.ok_bind]
    by_cases hab : w[j] = v[i + j]
    · obtain ⟨j', h1, h2, h3⟩ := ih (j + 1) (by omega)
      refine ⟨j', by simpa [hab] using h1, h2, h3.trans ?_⟩
      simp [hab, Nat.add_assoc]
    · refine ⟨j, by simp [hab], by omega, ?_⟩
      constructor
      · intro h'; omega
      · rintro ⟨s, hs⟩
        simp only [List.cons_append, List.cons.injEq] at hs
        exact absurd hs.1.symm hab

theorem subwordLoop_eq (w v : Word) (hl : w.length ≤ v.length) : ∀ n i, i + n = v.length - w.length + 1 →
    ∃ b, subwordLoop w v n i = .ok b ∧
      (b = true ↔ ∃ k, i ≤ k ∧ k + w.length ≤ v.length ∧ ∃ s, v.drop k = w ++ s) := by
  intro n
  induction n with
  | zero =>
    intro i h
    refine ⟨false, rfl, ?_⟩
    simp only [Bool.false_eq_true, false_iff]
    rintro ⟨k, h1, h2, _⟩
    omega
  | succ n ih =>
    intro i h
    obtain ⟨j, h1, h2, h3⟩ := matchLoop_eq w v i (by omega) w.length 0 (by simp)
    rw [subwordLoop, h1]
    simp only [Res.ok_bind]
    by_cases hj : j = w.length
    · refine ⟨true, by simp [hj], ?_⟩
      simp only [true_iff]
      exact ⟨i, Nat.le_refl _, by omega, by simpa using h3.1 hj⟩
    · obtain ⟨b, h4, h5⟩ := ih (i + 1) (by omega)
      refine ⟨b, by simpa [hj] using h4, h5.trans ?_⟩
      constructor
      · rintro ⟨k, a1, a2, a3⟩; exact ⟨k, by omega, a2, a3⟩
      · rintro ⟨k, a1, a2, a3⟩
        refine ⟨k, ?_, a2, a3⟩
        rcases Nat.lt_or_ge i k with h | h
        · exact h
        · have : k = i := by omega
          subst this
          exact absurd (h3.2 (by simpa using a3)) hj

/-- C10: `is_subword` never reads out of bounds and decides the contiguous-factor relation. -/
theorem C10_isSubword (w v : Word) :
    ∃ b, isSubword w v = .ok b ∧ (b = true ↔ ∃ p s, v = p ++ w ++ s) := by
  unfold isSubword
  split
  · rename_i h
    refine ⟨false, rfl, ?_⟩
    simp only [Bool.false_eq_true, false_iff]
    rintro ⟨p, s, rfl⟩
    simp at h; omega
  · rename_i h
    obtain ⟨b, h1, h2⟩ := subwordLoop_eq w v (by omega) (v.length - w.length + 1) 0 (by omega)
    refine ⟨b, h1, h2.trans ?_⟩
    constructor
    · rintro ⟨k, _, _, s, hs⟩
      exact ⟨v.take k, s, by rw [List.append_assoc, ← hs, List.take_append_drop]⟩
    · rintro ⟨p, s, rfl⟩
      exact ⟨p.length, by omega, by simp, s, by simp⟩

example : isSubword [true, false] [false, true, false, true] = .ok true ∧
    isSubword [true, true] [true, false, true] = .ok false ∧ isSubword [] [] = .ok true := by decide

/-! ## C11 -/

theorem eraseLoop_eq (total k : Int) : ∀ (n : Nat) (i : Int) (w : Word) (fuel : Nat),
    n = (min total k - i).toNat → n ≤ w.length → n < fuel →
    eraseLoop total k fuel i w = some (.ok (w.drop n)) := by
  intro n
  induction n with
  | zero =>
    intro i w fuel hn _ hf
    obtain ⟨fuel, rfl⟩ : ∃ m, fuel = m + 1 := ⟨fuel - 1, by omega⟩
    unfold eraseLoop; rw [if_neg (by omega)]; simp
  | succ n ih =>
    intro i w fuel hn hw hf
    obtain ⟨fuel, rfl⟩ : ∃ m, fuel = m + 1 := ⟨fuel - 1, by omega⟩
    unfold eraseLoop; rw [if_pos (by omega)]
    cases w with
    | nil => simp at hw
    | cons a w =>
      simp only [List.drop_succ_cons]
      exact ih (i + 1) w fuel (by omega) (by simpa using hw) (by omega)

theorem toInt32_le (n : Nat) : toInt32 n ≤ n := by
  unfold toInt32; simp only; split <;> omega

/-- What `erase_prefix` does, for every word and every `int k`: it removes
`min(max(k,0), max((int)size(),0))` bits from the front and never erases from an empty word. -/
theorem C11_general (w : Word) (k : Int) (fuel : Nat) (hf : w.length < fuel) :
    erasePrefix fuel w k = some (.ok (w.drop (min (toInt32 w.length) k).toNat)) := by
  have h := toInt32_le w.length
  exact eraseLoop_eq _ _ _ 0 w fuel (by simp) (by omega) (by omega)

/-- C11 for words shorter than 2^31 bits. Missing for the full claim: longer words, for which it is
false (`C11_refuted`). -/
theorem C11_erasePrefix_partial (w : Word) (hw : w.length < 2 ^ 31) (k : Int) (fuel : Nat)
    (hf : w.length < fuel) :
    erasePrefix fuel w k = some (.ok (w.drop (min (max k 0) w.length).toNat)) := by
  rw [C11_general w k fuel hf]
  have : toInt32 w.length = w.length := by
    unfold toInt32; simp only; rw [if_pos (by omega)]; omega
  rw [this]
  have : (min (w.length : Int) k).toNat = (min (max k 0) (w.length : Int)).toNat := by omega
  rw [this]

/-- C11 is false for words of 2^31 … 2^32-1 bits: the size converted to `int` is negative and
nothing is erased, whatever `k` is. -/
theorem C11_refuted (w : Word) (h1 : 2 ^ 31 ≤ w.length) (h2 : w.length < 2 ^ 32) (k : Int)
    (fuel : Nat) (hf : w.length < fuel) : erasePrefix fuel w k = some (.ok w) := by
  rw [C11_general w k fuel hf]
  have : toInt32 w.length < 0 := by
    unfold toInt32; simp only; rw [if_neg (by omega)]; omega
  have : (min (toInt32 w.length) k).toNat = 0 := by omega
  rw [this]; rfl

example : ∃ w : Word, 2 ^ 31 ≤ w.length ∧ w.length < 2 ^ 32 := 
  ⟨List.replicate (2 ^ 31) true, by rw [List.length_replicate]; omega⟩
example : erasePrefix 9 [true, false, true] 2 = some (.ok [true]) ∧
    erasePrefix 9 [true, false, true] (-2) = some (.ok [true, false, true]) ∧
    erasePrefix 9 [true, false, true] 7 = some (.ok []) := by decide

/-! ## C12 -/

/-- C12: appending a bit. -/
theorem C12_appendBit (st : Store) (x : Nat) (b : Bool) :
    (appendBit st x b) x = st x ++ [b] ∧ ∀ z, z ≠ x → (appendBit st x b) z = st z := by
  refine ⟨by simp [appendBit, Store.set], fun z hz => by simp [appendBit, Store.set, hz]⟩

theorem appendLoop_ne {x y : Nat} (h : x ≠ y) (v : Word) : ∀ (n i fuel : Nat) (st : Store),
    st y = v → i + n = v.length → n < fuel →
    appendLoop x y fuel i st = some (.ok (st.set x (st x ++ v.drop i))) := by
  intro n
  induction n with
  | zero =>
    intro i fuel st hv hn hf
    obtain ⟨fuel, rfl⟩ : ∃ m, fuel = m + 1 := ⟨fuel - 1, by omega⟩
    rw [appendLoop, hv, if_neg (by omega), List.drop_of_length_le (by omega)]
    congr 2
    funext z
    simp only [Store.set, List.append_nil]
    split
    · rename_i e; rw [e]
    · rfl
  | succ n ih =>
    intro i fuel st hv hn hf
    obtain ⟨fuel, rfl⟩ : ∃ m, fuel = m + 1 := ⟨fuel - 1, by omega⟩
    have hi : i < v.length := by omega
    rw [appendLoop, hv, if_pos hi, get_lt hi]
    simp only
    rw [ih (i + 1) fuel _ (by simp [Store.set, Ne.symm h, hv]) (by omega) (by omega)]
    rw [List.drop_eq_getElem_cons hi]
    congr 2
    funext z
    simp only [Store.set, if_true]
    split <;> simp_all

/-- C12 for distinct words: `x.append(y)` makes `x` the concatenation and changes nothing else.
Missing for the full claim: `x.append(x)`, for which it is false (`C12_self_refuted`). -/
theorem C12_append_partial (st : Store) {x y : Nat} (h : x ≠ y) (fuel : Nat)
    (hf : (st y).length < fuel) :
    ∃ st', appendWord fuel st x y = some (.ok st') ∧ st' x = st x ++ st y ∧ ∀ z, z ≠ x → st' z = st z := by
  refine ⟨_, appendLoop_ne h (st y) (st y).length 0 fuel st rfl (by simp) hf, ?_, ?_⟩
  · simp [Store.set]
  · intro z hz; simp [Store.set, hz]

/-- C12 is false for a non-empty word appended to itself: the loop does not terminate. -/
theorem C12_self_refuted (st : Store) (x : Nat) (hne : st x ≠ []) (fuel : Nat) :
    appendWord fuel st x x = none := by
  have key : ∀ (fuel i : Nat) (st : Store), i < (st x).length → appendLoop x x fuel i st = none := by
    intro fuel
    induction fuel with
    | zero => intro i st _; rfl
    | succ fuel ih =>
      intro i st h
      rw [appendLoop, if_pos h, get_lt h]
      exact ih (i + 1) _ (by simp [Store.set]; exact h)
  exact key fuel 0 st (List.length_pos_iff.2 hne)

/-- Appending an empty word to itself is fine. -/
theorem C12_self_empty (st : Store) (x : Nat) (h : st x = []) (fuel : Nat) (hf : 0 < fuel) :
    appendWord fuel st x x = some (.ok st) := by
  obtain ⟨fuel, rfl⟩ : ∃ m, fuel = m + 1 := ⟨fuel - 1, by omega⟩
  simp [appendWord, appendLoop, h]

example : (fun n => if n = 0 then [true] else [false, true] : Store) 0 ≠ [] := by decide

/-! ## C17 -/

/-- C17: `bytes()` is the least number of 8-bit bytes holding `size()` bits. (`size()` of a
`std::vector<bool>` is less than 2^63.) -/
theorem C17_bytes (w : Word) (h : w.length < 2 ^ 63) (n : Nat) : bytes w ≤ n ↔ w.length ≤ 8 * n := by
  unfold bytes bitsPerByte
  omega

/-- C17: `set_back` on a non-empty word changes only the last bit. -/
theorem C17_setBack (w : Word) (h : w.length < 2 ^ 63) (hne : w ≠ []) (x : Bool) :
    ∃ p b, w = p ++ [b] ∧ setBack w x = .ok (p ++ [x]) := by
  refine ⟨w.dropLast, w.getLast hne, (List.dropLast_concat_getLast hne).symm, ?_⟩
  have hl := List.length_pos_iff.2 hne
  have hi : (w.length + (2 ^ 64 - 1)) % 2 ^ 64 = w.length - 1 := by omega
  unfold setBack
  simp only
  rw [hi, if_pos (by omega)]
  have : w.set (w.length - 1) x = w.dropLast ++ [x] := by
    conv => lhs; rw [← List.dropLast_concat_getLast hne]
    rw [List.set_append_right _ _ (by simp)]
    simp
  rw [this]

/-- C17: `set_back` on the empty word is undefined. -/
theorem C17_setBack_empty (x : Bool) : setBack [] x = .ub .outOfBounds := by cases x <;> decide

example : bytes (List.replicate 17 true) = 3 ∧ bytes [] = 0 ∧ setBack [true, true] false = .ok [true, false] := by
  decide

end Helper.BinWord
