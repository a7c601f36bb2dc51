import Verif.Range.Model
/-!
# Property C45: ranges
-/
namespace Helper.Range

theorem forLoop_spec (last : Nat) (hl : last < 2 ^ 64) : ∀ (n fuel i : Nat), i < 2 ^ 64 →
    n = (last + 2 ^ 64 - i) % 2 ^ 64 → n < fuel →
    forLoop last fuel i = some ((List.range n).map fun k => (i + k) % 2 ^ 64) := by
  intro n
  induction n with
  | zero =>
    intro fuel i hi hn hf
    obtain ⟨fuel, rfl⟩ : ∃ m, fuel = m + 1 := ⟨fuel - 1, by omega⟩
    have : i = last := by omega
    simp [forLoop, ne, this]
  | succ n ih =>
    intro fuel i hi hn hf
    obtain ⟨fuel, rfl⟩ : ∃ m, fuel = m + 1 := ⟨fuel - 1, by omega⟩
    have hne : i ≠ last := by rintro rfl; omega
    rw [forLoop]
    have : ne i last = true := by simp [ne, hne]
    rw [if_pos this, ih fuel (inc i) (Nat.mod_lt _ (by decide)) (by unfold inc; omega) (by omega), List.range_succ_eq_map]
    simp only [Option.map_some, List.map_cons, List.map_map, deref, inc]
    congr 2
    · simp; omega
    · apply List.map_congr_left
      intro k _
      simp only [Function.comp]
      omega

/-- C45: iteration visits `size()` values, the `k`-th of them being `r[k]`, and then ends; for all 64-bit
bounds. `start`, `stop`, `stride` are as given. -/
theorem C45_visits (a b : Nat) (ha : a < 2 ^ 64) (hb : b < 2 ^ 64) (fuel : Nat) (hf : size (range a b) < fuel) :
    ∃ l, visit fuel (range a b) = some l ∧ l.length = size (range a b) ∧
      (∀ k (h : k < l.length), l[k] = index (range a b) k) ∧
      getStart (range a b) = a ∧ getStop (range a b) = b ∧ stride (range a b) = 1 := by
  refine ⟨_, forLoop_spec b hb _ fuel a ha rfl hf, by simp [size, range], ?_, rfl, rfl, rfl⟩
  intro k h
  simp [index, range]

/-- C45: for `a ≤ b` the values are `a, a+1, …, b-1`. -/
theorem C45_forward (a b : Nat) (hab : a ≤ b) (hb : b < 2 ^ 64) :
    size (range a b) = b - a ∧ (∀ fuel, b - a < fuel → visit fuel (range a b) = some (List.range' a (b - a))) ∧
    ∀ i, i < b - a → index (range a b) i = a + i := by
  have hs : size (range a b) = b - a := by simp only [size, range]; omega
  refine ⟨hs, fun fuel hf => ?_, fun i hi => ?_⟩
  · rw [visit, «begin», «end», getStart, getStop]
    show forLoop b fuel a = _
    rw [forLoop_spec b hb (b - a) fuel a (by omega) (by omega) hf, List.range'_eq_map_range]
    congr 1
    apply List.map_congr_left
    intro k hk
    rw [List.mem_range] at hk
    exact Nat.mod_eq_of_lt (by omega)
  · simp only [index, range]; exact Nat.mod_eq_of_lt (by omega)

/-- C45: for `a > b` size and iteration wrap around: `2^64-(a-b)` values, first those up to `2^64-1`, then
`0, …, b-1`. -/
theorem C45_wraps (a b : Nat) (hab : b < a) (ha : a < 2 ^ 64) :
    size (range a b) = 2 ^ 64 - (a - b) ∧
    ∀ fuel, 2 ^ 64 - (a - b) < fuel →
      visit fuel (range a b) = some (List.range' a (2 ^ 64 - a) ++ List.range' 0 b) := by
  have hs : size (range a b) = 2 ^ 64 - (a - b) := by simp only [size, range]; omega
  refine ⟨hs, fun fuel hf => ?_⟩
  rw [visit, «begin», «end», getStart, getStop]
  show forLoop b fuel a = _
  rw [forLoop_spec b (by omega) (2 ^ 64 - (a - b)) fuel a ha (by omega) hf]
  rw [show 2 ^ 64 - (a - b) = (2 ^ 64 - a) + b from by omega, List.range_add, List.map_append, List.map_map]
  congr 2
  · rw [List.range'_eq_map_range]
    apply List.map_congr_left
    intro k hk
    rw [List.mem_range] at hk
    exact Nat.mod_eq_of_lt (by omega)
  · rw [List.range'_eq_map_range]
    apply List.map_congr_left
    intro k hk
    rw [List.mem_range] at hk
    simp only [Function.comp]
    omega

/-- C45: `range(n)` is `range(0,n)`. -/
theorem C45_range1 (n : Nat) : range1 n = range 0 n := rfl

example : visit 9 (range 2 5) = some [2, 3, 4] := by decide +kernel
example : visit 9 (range (2 ^ 64 - 1) 2) = some [2 ^ 64 - 1, 0, 1] := by decide +kernel

end Helper.Range
