/-!
# C151: printing a `PairIterator`

iterator.hpp:144-145: `os << "{" << e._iter1 << "," << e._iter2 << "}"`. The iterators are pointers; `operator<<` of the standard library prints pointers to
characters as strings, and other pointers to objects as addresses.

Simplifications: addresses are printed as libstdc++ does, in hexadecimal with `0x`, and `0` for the null pointer, by a stream with the default flags and no
field width; memory is a list of characters that begins at address 0, of which the null pointer is never read. Iterators of classes, which the standard library
does not print, pointers to functions and pointers to volatile objects are left out.
-/
set_option linter.unusedSectionVars false
namespace Helper.Iter.PairPrint

/-- The memory. -/
abbrev Mem := List Char

/-- The end of a string. -/
def nul : Char := Char.ofNat 0

/-- What an iterator of type `T*` points to: `char`, `signed char` or `unsigned char`, with or without `const`, or another object. -/
inductive Elem where
  | char
  | other
deriving DecidableEq, Repr

/-- The printing of `const void*` [facet.num.put.virtuals], `%p`; libstdc++ prints it as an integer with `hex` and `showbase`. -/
def address (a : Nat) : List Char := if a = 0 then ['0'] else '0' :: 'x' :: Nat.toDigits 16 a

/-- The characters up to the next NUL; `none` if there is none, which is undefined. -/
def upToNul : List Char → Option (List Char)
  | [] => none
  | c :: s => if c = nul then some [] else (upToNul s).map (c :: ·)

/-- `operator<<(ostream&, const char*)` [ostream.inserters.character]; the null pointer is undefined. -/
def string (m : Mem) (a : Nat) : Option (List Char) := if a = 0 then none else upToNul (m.drop a)

/-- `os << i`; `none` is undefined. -/
def pointer (m : Mem) : Elem → Nat → Option (List Char)
  | .char, a => string m a
  | .other, a => some (address a)

/-- iterator.hpp:144-145. -/
def print (m : Mem) (e f : Elem) (i j : Nat) : Option (List Char) := do
  let s ← pointer m e i
  let t ← pointer m f j
  return '{' :: (s ++ ',' :: (t ++ ['}']))

/-! ## Specification -/

/-- There is a string at an address. -/
def HasString (m : Mem) (a : Nat) : Prop := a ≠ 0 ∧ nul ∈ m.drop a

/-- `s` is the string at `a`: no NUL in it, and one after it. -/
def StringAt (m : Mem) (a : Nat) (s : List Char) : Prop := a ≠ 0 ∧ nul ∉ s ∧ s ++ [nul] <+: m.drop a

/-- The iterator can be printed. -/
def Printable (m : Mem) : Elem → Nat → Prop
  | .char, a => HasString m a
  | .other, _ => True

/-! ## Lemmas -/

/-- The value of a hexadecimal digit. -/
def hexVal (c : Char) : Nat := if c.toNat < 58 then c.toNat - 48 else c.toNat - 87

/-- The number that hexadecimal digits stand for. -/
def unhex (l : List Char) : Nat := l.foldl (fun n c => 16 * n + hexVal c) 0

theorem hexVal_digit : ∀ d, d < 16 → hexVal d.digitChar = d := by decide

theorem unhex_digits (n : Nat) : unhex (Nat.toDigits 16 n) = n ∧ ',' ∉ Nat.toDigits 16 n := by
  induction n using Nat.strongRecOn with
  | ind n ih =>
    rw [Nat.toDigits_eq_if (by decide)]
    split
    · next h =>
      have := hexVal_digit n h
      constructor
      · simp [unhex, this]
      · simp
    · next h =>
      have hd := hexVal_digit (n % 16) (Nat.mod_lt _ (by decide))
      have hq := ih (n / 16) (by omega)
      constructor
      · have h1 := hq.1
        unfold unhex at h1 ⊢
        rw [List.foldl_append, h1]
        simp only [List.foldl_cons, List.foldl_nil, hd]
        omega
      · rw [List.mem_append, not_or]
        exact ⟨hq.2, by simp⟩

theorem address_inj {a b : Nat} (h : address a = address b) : a = b := by
  unfold address at h
  split at h <;> split at h
  · omega
  · simp at h
  · simp at h
  · have : Nat.toDigits 16 a = Nat.toDigits 16 b := by simpa using h
    rw [← (unhex_digits a).1, ← (unhex_digits b).1, this]

theorem comma_address (a : Nat) : ',' ∉ address a := by
  unfold address
  split
  · decide
  · have := (unhex_digits a).2
    simp [this]

/-- Lists split at the first comma. -/
theorem split_first {s t u v : List Char} (hs : ',' ∉ s) (hu : ',' ∉ u) (h : s ++ ',' :: t = u ++ ',' :: v) : s = u ∧ t = v := by
  induction s generalizing u with
  | nil =>
    cases u with
    | nil => simpa using h
    | cons c u =>
      simp only [List.nil_append, List.cons_append, List.cons.injEq] at h
      exact absurd (by simp [← h.1]) hu
  | cons c s ih =>
    cases u with
    | nil =>
      simp only [List.nil_append, List.cons_append, List.cons.injEq] at h
      exact absurd (by simp [h.1]) hs
    | cons d u =>
      simp only [List.cons_append, List.cons.injEq] at h
      simp only [List.mem_cons, not_or] at hs hu
      obtain ⟨h1, h2⟩ := ih hs.2 hu.2 h.2
      exact ⟨by rw [h.1, h1], h2⟩

/-- Lists split at the last comma. -/
theorem split_last {s t u v : List Char} (ht : ',' ∉ t) (hv : ',' ∉ v) (h : s ++ ',' :: t = u ++ ',' :: v) : s = u ∧ t = v := by
  have h' := congrArg List.reverse h
  simp only [List.reverse_append, List.reverse_cons, List.append_assoc, List.cons_append, List.nil_append] at h'
  have := split_first (by simpa using ht) (by simpa using hv) h'
  exact ⟨List.reverse_inj.1 this.2, List.reverse_inj.1 this.1⟩

theorem upToNul_iff (l s : List Char) : upToNul l = some s ↔ nul ∉ s ∧ s ++ [nul] <+: l := by
  induction l generalizing s with
  | nil => simp [upToNul]
  | cons c l ih =>
    unfold upToNul
    split
    · next h =>
      subst h
      cases s with
      | nil => simp
      | cons d s =>
        simp only [Option.some.injEq, reduceCtorEq, List.mem_cons, not_or, List.cons_append, List.cons_prefix_cons, false_iff]
        rintro ⟨⟨h, _⟩, h', _⟩
        exact h h'.symm
    · next h =>
      cases s with
      | nil =>
        simp only [Option.map_eq_some_iff, reduceCtorEq, and_false, exists_false, List.nil_append, List.cons_prefix_cons, false_iff]
        rintro ⟨_, h', _⟩
        exact h h'.symm
      | cons d s =>
        simp only [Option.map_eq_some_iff, List.cons.injEq, List.mem_cons, not_or, List.cons_append, List.cons_prefix_cons]
        constructor
        · rintro ⟨s', hs, rfl, rfl⟩
          have := (ih s').1 hs
          exact ⟨⟨fun e => h e.symm, this.1⟩, rfl, this.2⟩
        · rintro ⟨⟨_, h1⟩, rfl, h2⟩
          exact ⟨s, (ih s).2 ⟨h1, h2⟩, rfl, rfl⟩

theorem upToNul_isSome (l : List Char) : (upToNul l).isSome = true ↔ nul ∈ l := by
  induction l with
  | nil => simp [upToNul]
  | cons c l ih =>
    unfold upToNul
    split
    · next h => simp [h]
    · next h =>
      rw [Option.isSome_map, ih, List.mem_cons]
      exact ⟨.inr, fun h' => h'.resolve_left fun e => h e.symm⟩

/-- A text is made from the texts of the iterators. -/
theorem print_some {m : Mem} {e f : Elem} {i j : Nat} {x : List Char} : print m e f i j = some x ↔
    ∃ s t, pointer m e i = some s ∧ pointer m f j = some t ∧ x = '{' :: (s ++ ',' :: (t ++ ['}'])) := by
  unfold print
  cases pointer m e i <;> cases pointer m f j <;> simp [eq_comm]

/-! ## Theorems -/

/-- **C151** (strings): what a pointer to characters is printed as. -/
theorem C151_string (m : Mem) (a : Nat) (s : List Char) : pointer m .char a = some s ↔ StringAt m a s := by
  show string m a = some s ↔ StringAt m a s
  unfold string StringAt
  split
  · next h => simp [h]
  · next h => rw [upToNul_iff]; simp [h]

/-- The first digit is not zero. -/
theorem head_digits (n : Nat) (h0 : n ≠ 0) : (Nat.toDigits 16 n).head? ≠ some '0' := by
  have hz : ∀ d, d < 16 → d ≠ 0 → d.digitChar ≠ '0' := by decide
  induction n using Nat.strongRecOn with
  | ind n ih =>
    rw [Nat.toDigits_eq_if (by decide)]
    split
    · next h => simpa using hz n h h0
    · next h =>
      have := ih (n / 16) (by omega) (by omega)
      cases hd : Nat.toDigits 16 (n / 16) with
      | nil => exact absurd hd Nat.toDigits_ne_nil
      | cons c l => rw [hd] at this; simpa using this

/-- **C151** (addresses): what another pointer is printed as: `0`, or `0x` and the digits of the address, the first of which is not zero. -/
theorem C151_address (m : Mem) (a : Nat) : pointer m .other 0 = some ['0'] ∧
    (a ≠ 0 → ∃ ds, pointer m .other a = some (['0', 'x'] ++ ds) ∧ unhex ds = a ∧ ds.head? ≠ some '0' ∧ ∀ c ∈ ds, c ∈ "0123456789abcdef".toList) := by
  refine ⟨rfl, fun h => ⟨Nat.toDigits 16 a, by simp [pointer, address, h], (unhex_digits a).1, head_digits a h, ?_⟩⟩
  have hz : ∀ d, d < 16 → d.digitChar ∈ "0123456789abcdef".toList := by decide +kernel
  clear h
  induction a using Nat.strongRecOn with
  | ind n ih =>
    intro c hc
    rw [Nat.toDigits_eq_if (by decide)] at hc
    split at hc
    · next h => rw [List.mem_singleton.1 hc]; exact hz n h
    · next h =>
      rcases List.mem_append.1 hc with hc | hc
      · exact ih (n / 16) (by omega) c hc
      · rw [List.mem_singleton.1 hc]; exact hz _ (Nat.mod_lt _ (by decide))

/-- **C151** (partial): printing is defined exactly if all pointers to characters point to strings. -/
theorem C151_defined_partial (m : Mem) (e f : Elem) (i j : Nat) : (print m e f i j).isSome = true ↔ Printable m e i ∧ Printable m f j := by
  have h : ∀ e i, Printable m e i ↔ (pointer m e i).isSome = true := by
    intro e i
    cases e with
    | other => simp [Printable, pointer]
    | char =>
      unfold Printable HasString pointer string
      simp only
      split
      · next h => simp [h]
      · next h => rw [upToNul_isSome]; simp [h]
  rw [h, h]
  unfold print
  cases pointer m e i <;> cases pointer m f j <;> simp

/-- **C151** (partial): iterators that are no pointers to characters print the same text only if they are equal, in any memories. -/
theorem C151_addresses_partial (m m' : Mem) (i j k l : Nat) : print m .other .other i j = print m' .other .other k l ↔ i = k ∧ j = l := by
  constructor
  · intro h
    have h' : address i ++ ',' :: (address j ++ ['}']) = address k ++ ',' :: (address l ++ ['}']) := by
      simpa [print, pointer] using h
    obtain ⟨h1, h2⟩ := split_first (comma_address i) (comma_address k) h'
    exact ⟨address_inj h1, address_inj (List.append_cancel_right h2)⟩
  · rintro ⟨rfl, rfl⟩
    rfl

/-- **C151** (partial): with a single pointer to characters, the text tells the address of the other iterator, and the string. -/
theorem C151_mixed_partial {m m' : Mem} {i j k l : Nat} {x : List Char} :
    (print m .char .other i j = some x → print m' .char .other k l = some x → j = l ∧ ∃ s, StringAt m i s ∧ StringAt m' k s) ∧
    (print m .other .char i j = some x → print m' .other .char k l = some x → i = k ∧ ∃ s, StringAt m j s ∧ StringAt m' l s) := by
  have hb : ∀ a, ',' ∉ address a ++ ['}'] := by
    intro a
    simp [comma_address a]
  constructor
  · intro h h'
    obtain ⟨s, t, hs, ht, rfl⟩ := print_some.1 h
    obtain ⟨u, v, hu, hv, hx⟩ := print_some.1 h'
    cases ht
    cases hv
    obtain ⟨rfl, h2⟩ := split_last (hb j) (hb l) (List.cons.inj hx).2
    exact ⟨address_inj (List.append_cancel_right h2), s, (C151_string ..).1 hs, (C151_string ..).1 hu⟩
  · intro h h'
    obtain ⟨s, t, hs, ht, rfl⟩ := print_some.1 h
    obtain ⟨u, v, hu, hv, hx⟩ := print_some.1 h'
    cases hs
    cases hu
    obtain ⟨h1, h2⟩ := split_first (comma_address i) (comma_address k) (List.cons.inj hx).2
    cases List.append_cancel_right h2
    exact ⟨address_inj h1, t, (C151_string ..).1 ht, (C151_string ..).1 hv⟩

/-- The text of a pair: braces around the texts of the iterators, with a comma. -/
theorem C151_text {m : Mem} {e f : Elem} {i j : Nat} {s t : List Char} (hs : pointer m e i = some s) (ht : pointer m f j = some t) :
    print m e f i j = some (['{'] ++ s ++ [','] ++ t ++ ['}']) := by
  simp [print, hs, ht]

/-- **C151, refuted**: in a memory with two copies of a string, different iterators print the same text. -/
theorem C151_copies_refuted {m : Mem} {a b : Nat} {s : List Char} (ha : StringAt m a s) (hb : StringAt m b s) (f : Elem) (j : Nat) :
    print m .char f a j = print m .char f b j ∧ print m f .char j a = print m f .char j b := by
  have h1 := (C151_string ..).2 ha
  have h2 := (C151_string ..).2 hb
  unfold print
  rw [h1, h2]
  exact ⟨rfl, rfl⟩

/-- **C151, refuted**: the iterators at the end of an array of characters at the end of the memory, and null pointers, can't be printed. -/
theorem C151_end_refuted (m : Mem) (f : Elem) (j : Nat) :
    print m .char f m.length j = none ∧ print m f .char j m.length = none ∧ print m .char f 0 j = none ∧ print m f .char j 0 = none := by
  have h1 : pointer m .char m.length = none := by simp [pointer, string, upToNul]
  have h2 : pointer m .char 0 = none := by simp [pointer, string]
  unfold print
  rw [h1, h2]
  cases pointer m f j <;> simp

/-- Two pairs of different strings with the same text: `"a,b"` and `"c"`, `"a"` and `"b,c"`. -/
def commas : Mem := [nul, 'a', ',', 'b', nul, 'c', nul, 'a', nul, 'b', ',', 'c', nul, 'a', nul]

/-- **C151, refuted**: with two pointers to characters the text does not tell the strings. -/
theorem C151_commas_refuted : print commas .char .char 1 5 = print commas .char .char 7 9 ∧ (print commas .char .char 1 5).isSome = true ∧
    pointer commas .char 1 ≠ pointer commas .char 7 ∧ pointer commas .char 5 ≠ pointer commas .char 9 := by decide +kernel

example : print commas .other .other 255 0 = some "{0xff,0}".toList ∧ print commas .char .other 1 4096 = some "{a,b,0x1000}".toList ∧
    print commas .char .char 7 5 = some "{a,c}".toList ∧ print ['a', 'b'] .char .other 1 1 = none := by decide +kernel

example : StringAt commas 7 ['a'] ∧ StringAt commas 13 ['a'] := by
  rw [← C151_string, ← C151_string]; decide +kernel

end Helper.Iter.PairPrint
