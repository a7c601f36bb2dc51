import Verif.Seq.Read
set_option linter.unusedSectionVars false
namespace Helper.Seq
open OStream

theorem digitChar (n : Nat) (h : n < 10) :
    (Char.ofNat (48 + n)).toNat = 48 + n ∧ '0' ≤ Char.ofNat (48 + n) ∧ Char.ofNat (48 + n) ≤ '9' := by
  match n, h with
  | 0, _ | 1, _ | 2, _ | 3, _ | 4, _ | 5, _ | 6, _ | 7, _ | 8, _ | 9, _ => decide

theorem digits_ne_nil (n : Nat) : digits n ≠ [] := by
  rw [digits]; split <;> simp

theorem digits_spec (n : Nat) :
    numeral (digits n) = n ∧ ∀ c ∈ digits n, '0' ≤ c ∧ c ≤ '9' := by
  induction n using Nat.strongRecOn with
  | _ n ih =>
    rw [digits]
    split
    · rename_i h
      obtain ⟨h1, h2⟩ := digitChar n h
      refine ⟨?_, ?_⟩
      · simp only [numeral, List.foldl_cons, List.foldl_nil, h1]; omega
      · intro c hc; rw [List.mem_singleton.1 hc]; exact h2
    · rename_i h
      obtain ⟨h1, h2⟩ := digitChar (n % 10) (Nat.mod_lt _ (by decide))
      obtain ⟨i1, i2⟩ := ih (n / 10) (by omega)
      refine ⟨?_, ?_⟩
      · rw [numeral, List.foldl_append]
        rw [numeral] at i1
        rw [i1]
        simp only [List.foldl_cons, List.foldl_nil, h1]; omega
      · intro c hc
        rcases List.mem_append.1 hc with hc | hc
        · exact i2 c hc
        · rw [List.mem_singleton.1 hc]; exact h2

/-- The text of an integer is read back as that integer, if no digit follows. -/
theorem intItem_intText {lo hi x : Int} (h1 : lo ≤ x) (h2 : x ≤ hi) {rest : List Char}
    (hr : ∀ c r, rest = c :: r → ¬ ('0' ≤ c ∧ c ≤ '9')) : IntItem lo hi (intText x ++ rest) x rest := by
  unfold intText
  obtain ⟨d1, d2⟩ := digits_spec x.natAbs
  split
  · exact ⟨[], ['-'], digits x.natAbs, blank_nil, by simp, digits_ne_nil _, d2, hr, by simp,
      by rw [d1]; simp; omega, h1, h2⟩
  · exact ⟨[], [], digits x.natAbs, blank_nil, by simp, digits_ne_nil _, d2, hr, by simp,
      by rw [d1]; simp; omega, h1, h2⟩

theorem intText_injective {x y : Int} (h : intText x = intText y) : x = y := by
  have hm : ∀ n, digits n ≠ [] ∧ ∀ t, digits n ≠ '-' :: t := by
    intro n
    refine ⟨digits_ne_nil n, fun t ht => ?_⟩
    have := (digits_spec n).2 '-' (by rw [ht]; simp)
    exact absurd this (by decide)
  have e : ∀ n m, digits n = digits m → n = m := fun n m h => by
    rw [← (digits_spec n).1, ← (digits_spec m).1, h]
  unfold intText at h
  split at h <;> split at h
  · have := e _ _ (List.cons.inj h).2; omega
  · exact absurd h.symm ((hm _).2 _)
  · exact absurd h ((hm _).2 _)
  · have := e _ _ h; omega

/-- First character of the text of an integer. -/
theorem intText_head (x : Int) : ∃ c r, intText x = c :: r ∧ (('0' ≤ c ∧ c ≤ '9') ∨ c = '-') := by
  unfold intText
  split
  · exact ⟨_, _, rfl, .inr rfl⟩
  · cases h : digits x.natAbs with
    | nil => exact absurd h (digits_ne_nil _)
    | cons c r => exact ⟨c, r, rfl, .inl ((digits_spec _).2 c (by rw [h]; simp))⟩

/-- A written list of integers is a text of the grammar. -/
theorem items_ints {lo hi : Int} {closing sep : Char} (hc : ¬ ('0' ≤ closing ∧ closing ≤ '9'))
    (hsp : ¬ ('0' ≤ sep ∧ sep ≤ '9')) (rest : List Char) :
    ∀ (x : Int) (xs : List Int), (∀ y ∈ x :: xs, lo ≤ y ∧ y ≤ hi) →
      Items (IntItem lo hi) closing sep
        (sepText [sep] ((x :: xs).map intText) ++ closing :: rest) (x :: xs) rest := by
  intro x xs
  induction xs generalizing x with
  | nil =>
    intro h
    have hx := h x (by simp)
    refine .last (b := []) ?_ blank_nil
    refine intItem_intText hx.1 hx.2 ?_
    intro c r hcr
    simp at hcr; rw [← hcr.1]; exact hc
  | cons z zs ih =>
    intro h
    have hx := h x (by simp)
    refine .more (b := []) (tail := sepText [sep] ((z :: zs).map intText) ++ closing :: rest) ?_
      blank_nil (ih z fun y hy => h y (List.mem_cons_of_mem _ hy))
    have : sepText [sep] ((x :: z :: zs).map intText) ++ closing :: rest =
        intText x ++ ([] ++ sep :: (sepText [sep] ((z :: zs).map intText) ++ closing :: rest)) := by
      simp [sepText]
    rw [this]
    refine intItem_intText hx.1 hx.2 ?_
    intro c r hcr
    simp at hcr; rw [← hcr.1]; exact hsp

theorem sepText_head (sep : List Char) (t : List Char) (ts : List (List Char)) :
    ∃ u, sepText sep (t :: ts) = t ++ u := by
  cases ts with
  | nil => exact ⟨[], by simp [sepText]⟩
  | cons u us => exact ⟨sep ++ sepText sep (u :: us), by simp [sepText]⟩

theorem sequence_ints {lo hi : Int} {opening closing sep : Char}
    (hcb : isSpace closing = false) (hc : ¬ ('0' ≤ closing ∧ closing ≤ '9')) (hcm : closing ≠ '-')
    (hsp : ¬ ('0' ≤ sep ∧ sep ≤ '9')) (rest : List Char) (xs : List Int)
    (h : ∀ y ∈ xs, lo ≤ y ∧ y ≤ hi) :
    Sequence (IntItem lo hi) opening closing sep
      ([opening] ++ sepText [sep] (xs.map intText) ++ [closing] ++ rest) xs rest := by
  refine ⟨[], sepText [sep] (xs.map intText) ++ closing :: rest, blank_nil, by simp, ?_⟩
  cases xs with
  | nil => exact .inl ⟨rfl, [], blank_nil, by simp [sepText]⟩
  | cons x xs =>
    refine .inr ⟨?_, items_ints hc hsp rest x xs h⟩
    obtain ⟨c, r, hcr, hcd⟩ := intText_head x
    obtain ⟨u, hu⟩ := sepText_head [sep] (intText x) (xs.map intText)
    rw [List.map_cons, hu, hcr]
    have hcs : isSpace c = false := by
      rcases hcd with h | rfl
      · exact IStream.isDigit_not_space (IStream.isDigit_iff.2 h)
      · decide
    have : (c :: r ++ u ++ closing :: rest) = [] ++ c :: (r ++ u ++ closing :: rest) := by simp
    rw [this]
    refine not_startsWith blank_nil hcb hcs ?_
    rintro rfl
    rcases hcd with h | h
    · exact hc h
    · exact hcm h

end Helper.Seq
