import Verif.Seq.Props
/-!
# Property C100: sequences of unsigned numbers

`read_sequence` (stlio.hpp:144-190) and `write_sequence` for an element type that is unsigned, with values `0 … max`.
`is >> x` converts the text by `strtoull` ([facet.num.get.virtuals]/3), which takes a minus sign and negates the result
in the unsigned type; the negation is that of the element type, as in the GNU and LLVM libraries. `unsigned char` is
read as a character and is not meant here. As for signed types the base is decimal and there is no grouping.
-/
set_option linter.unusedSectionVars false
namespace Helper

namespace IStream

/-- `std::num_get` for an unsigned type with values `0 … max`: the characters taken are those taken for a signed type;
without digits, or with a magnitude above `max`, failbit is set; after a minus sign the value is negated modulo
`max + 1`. Returns the value stored. -/
def extractUInt (max : Nat) (s : IStream) : Nat × IStream :=
  let n := signLength s.rest
  let sign := s.rest.take n
  let ds := (s.rest.drop n).takeWhile isDigit
  let rest' := (s.rest.drop n).dropWhile isDigit
  let v := digitsValue 0 ds
  let s' := { s with before := (sign ++ ds).reverse ++ s.before, rest := rest',
                     eof := s.eof || rest'.isEmpty }
  if ds.isEmpty then (0, { s' with fail := true })
  else if max < v then (max, { s' with fail := true })
  else if sign = ['-'] then ((max + 1 - v) % (max + 1), s')
  else (v, s')

/-- `is >> x` for an unsigned type with values `0 … max`. When the sentry fails the variable keeps its value `x`. -/
def readUInt (max : Nat) (s : IStream) (x : Nat) : Nat × IStream :=
  let r := s.sentry false
  if r.1 then extractUInt max r.2 else (x, r.2)

end IStream

/-- `os << n` for an unsigned type. -/
def OStream.putUInt (os : OStream) (n : Nat) : OStream := os.put (OStream.digits n)

namespace Seq
open IStream OStream

/-- An unsigned number as the reader takes it: an integer from `-max` to `max`, reduced modulo `max + 1`. -/
def UIntItem (max : Nat) (inp : List Char) (x : Nat) (rest : List Char) : Prop :=
  x ≤ max ∧ ∃ i, IntItem (-max) max inp i rest ∧ ∃ k : Int, (x : Int) = i + k * (max + 1)

theorem unique_residue {max x y : Nat} {i k l : Int} (hx : x ≤ max) (hy : y ≤ max)
    (h1 : (x : Int) = i + k * (max + 1)) (h2 : (y : Int) = i + l * (max + 1)) : x = y := by
  have h3 : (x : Int) % (max + 1) = (y : Int) % (max + 1) := by
    rw [h1, h2, Int.add_mul_emod_self_right, Int.add_mul_emod_self_right]
  rw [Int.emod_eq_of_lt (by omega) (by omega), Int.emod_eq_of_lt (by omega) (by omega)] at h3
  omega

/-- The extraction for an unsigned type takes the characters, and fails in the cases, of the extraction of an integer from
`-max` to `max`. -/
theorem extractUInt_int (max : Nat) (s : IStream) :
    (extractUInt max s).2 = (extractInt (-max) max s).2 ∧ (extractUInt max s).1 ≤ max ∧
    ((extractInt (-max) max s).2.failed = false →
      ∃ k : Int, ((extractUInt max s).1 : Int) = (extractInt (-max) max s).1 + k * (max + 1)) := by
  unfold extractUInt extractInt
  simp only
  generalize signLength s.rest = n
  generalize s.rest.take n = sign
  generalize (s.rest.drop n).takeWhile isDigit = ds
  generalize (s.rest.drop n).dropWhile isDigit = tl
  generalize digitsValue 0 ds = v
  by_cases hde : ds.isEmpty = true
  · simp [hde, IStream.failed]
  · rw [if_neg hde, if_neg hde]
    by_cases hv : max < v
    · rw [if_pos hv]
      by_cases hm : sign = ['-']
      · rw [if_pos hm, if_pos (by omega)]
        simp [IStream.failed]
      · rw [if_neg hm, if_neg (by omega), if_pos (by omega)]
        simp [IStream.failed]
    · rw [if_neg hv]
      by_cases hm : sign = ['-']
      · rw [if_pos hm, if_pos hm, if_neg (by omega), if_neg (by omega)]
        refine ⟨rfl, Nat.le_of_lt_succ (Nat.mod_lt _ (by omega)), fun _ => ?_⟩
        by_cases h0 : v = 0
        · exact ⟨0, by simp [h0]⟩
        · exact ⟨1, by simp only; rw [Nat.mod_eq_of_lt (by omega)]; omega⟩
      · rw [if_neg hm, if_neg hm, if_neg (by omega), if_neg (by omega)]
        exact ⟨rfl, by simp only; omega, fun _ => ⟨0, by simp⟩⟩

theorem readUInt_int (max x0 : Nat) (s : IStream) :
    (s.readUInt max x0).2 = (s.readInt (-max) max x0).2 ∧
    (x0 ≤ max → (s.readUInt max x0).1 ≤ max) ∧
    ((s.readInt (-max) max x0).2.failed = false →
      (s.readUInt max x0).1 ≤ max ∧
      ∃ k : Int, ((s.readUInt max x0).1 : Int) = (s.readInt (-max) max x0).1 + k * (max + 1)) := by
  unfold readUInt readInt
  simp only
  by_cases hg : (s.sentry false).1 = true
  · rw [if_pos hg, if_pos hg]
    obtain ⟨h1, h2, h3⟩ := extractUInt_int max (s.sentry false).2
    exact ⟨h1, fun _ => h2, fun h => ⟨h2, h3 h⟩⟩
  · rw [if_neg hg, if_neg hg]
    refine ⟨rfl, id, fun h => ?_⟩
    exfalso; revert hg h
    simp only [sentry, IStream.failed]
    split
    · split
      · split <;> simp
      · simp
    · simp

theorem reads_uint (max x0 : Nat) :
    Reads (fun _ => True) (fun s => s.readUInt max x0) (UIntItem max) where
  reads := by
    rintro s x rest h - ⟨hx, i, hi, k, hk⟩
    obtain ⟨t, ht, hr⟩ := readInt_ok h (x0 : Int) hi
    refine ⟨t, ht, ?_⟩
    obtain ⟨h1, -, h3⟩ := readUInt_int max x0 s
    rw [hr] at h1 h3
    obtain ⟨h4, l, h5⟩ := h3 (by simp [IStream.failed, IStream.adv, h.fail, h.bad])
    exact Prod.ext (unique_residue h4 hx h5 hk) h1
  item := by
    intro s h _ hf
    obtain ⟨h1, -, h3⟩ := readUInt_int max x0 s
    have hf' : (s.readInt (-max) max x0).2.failed = false := by rw [← h1]; exact hf
    obtain ⟨h4, h5⟩ := h3 hf'
    refine ⟨h4, _, ?_, h5⟩
    rw [h1]
    exact readInt_item h x0 hf'
  notGood := by
    intro s h
    show (s.readUInt max x0).2.failed = true
    rw [(readUInt_int max x0 s).1]
    exact readInt_notGood h x0
  adv := fun _ _ _ => trivial
  blanks := by
    intro b y r x rest hb hy
    unfold UIntItem
    simp only [intItem_blanks hb hy]

theorem writes_uint : Writes OStream.putUInt digits := by
  intro os x hf hw; simp [putUInt, put, hf, hw]

theorem intText_nat (n : Nat) : intText n = digits n := by
  unfold intText; rw [if_neg (by omega)]; rfl

/-- A list of integers stands in a text exactly if the list of its residues is read from it. -/
theorem items_uint {max : Nat} {closing sep : Char} {inp : List Char} {is : List Int} {rest : List Char}
    (h : Items (IntItem (-max) max) closing sep inp is rest) :
    Items (UIntItem max) closing sep inp (is.map fun i : Int => (i % (max + 1)).toNat) rest := by
  have key : ∀ {inp rest} {i : Int}, IntItem (-max) max inp i rest →
      UIntItem max inp (i % (max + 1)).toNat rest := by
    intro inp rest i hi
    have h1 := Int.emod_nonneg i (b := (max + 1 : Int)) (by omega)
    have h2 := Int.emod_lt_of_pos i (b := (max + 1 : Int)) (by omega)
    refine ⟨by omega, i, hi, -(i / (max + 1)), ?_⟩
    have := Int.emod_add_mul_ediv i (max + 1)
    rw [Int.toNat_of_nonneg h1, Int.neg_mul, Int.mul_comm (i / _)]
    omega
  induction h with
  | last h hb => exact .last (key h) hb
  | more h hb _ ih => exact .more (key h) hb ih

theorem items_int {max : Nat} {closing sep : Char} {inp : List Char} {xs : List Nat} {rest : List Char}
    (h : Items (UIntItem max) closing sep inp xs rest) :
    ∃ is, Items (IntItem (-max) max) closing sep inp is rest := by
  induction h with
  | last h hb => obtain ⟨_, i, hi, _⟩ := h; exact ⟨_, .last hi hb⟩
  | more h hb _ ih =>
    obtain ⟨_, i, hi, _⟩ := h
    obtain ⟨is, his⟩ := ih
    exact ⟨_, .more hi hb his⟩

theorem sequence_uint {max : Nat} {opening closing sep : Char} {inp : List Char} {is : List Int} {rest : List Char}
    (h : Sequence (IntItem (-max) max) opening closing sep inp is rest) :
    Sequence (UIntItem max) opening closing sep inp (is.map fun i : Int => (i % (max + 1)).toNat) rest := by
  obtain ⟨b, body, hb, hinp, h | ⟨hn, hit⟩⟩ := h
  · obtain ⟨h1, h2⟩ := h
    exact ⟨b, body, hb, hinp, .inl ⟨by rw [h1]; rfl, h2⟩⟩
  · exact ⟨b, body, hb, hinp, .inr ⟨hn, items_uint hit⟩⟩

theorem sequence_int {max : Nat} {opening closing sep : Char} {inp : List Char} {xs : List Nat} {rest : List Char}
    (h : Sequence (UIntItem max) opening closing sep inp xs rest) :
    ∃ is, Sequence (IntItem (-max) max) opening closing sep inp is rest := by
  obtain ⟨b, body, hb, hinp, h | ⟨hn, hit⟩⟩ := h
  · obtain ⟨h1, h2⟩ := h
    exact ⟨[], b, body, hb, hinp, .inl ⟨rfl, h2⟩⟩
  · obtain ⟨is, his⟩ := items_int hit
    exact ⟨is, b, body, hb, hinp, .inr ⟨hn, his⟩⟩

theorem sequence_nats {max : Nat} {opening closing sep : Char} (hcb : isSpace closing = false)
    (hc : ¬ ('0' ≤ closing ∧ closing ≤ '9')) (hsp : ¬ ('0' ≤ sep ∧ sep ≤ '9')) (rest : List Char) (xs : List Nat)
    (h : ∀ y ∈ xs, y ≤ max) :
    Sequence (IntItem (-max) max) opening closing sep
      ([opening] ++ sepText [sep] (xs.map digits) ++ [closing] ++ rest) (xs.map fun n : Nat => (n : Int)) rest := by
  refine ⟨[], sepText [sep] (xs.map digits) ++ closing :: rest, blank_nil, by simp, ?_⟩
  cases xs with
  | nil => exact .inl ⟨rfl, [], blank_nil, by simp [sepText]⟩
  | cons x xs =>
    have hmap : ((x :: xs).map fun n : Nat => (n : Int)).map intText = (x :: xs).map digits := by
      rw [List.map_map]; exact List.map_congr_left fun n _ => intText_nat n
    refine .inr ⟨?_, ?_⟩
    · obtain ⟨u, hu⟩ := sepText_head [sep] (digits x) (xs.map digits)
      cases hcr : digits x with
      | nil => exact absurd hcr (digits_ne_nil _)
      | cons c r =>
        have hcd := (digits_spec x).2 c (by rw [hcr]; simp)
        rw [List.map_cons, hu, hcr]
        have : (c :: r ++ u ++ closing :: rest) = [] ++ c :: (r ++ u ++ closing :: rest) := by simp
        rw [this]
        refine not_startsWith blank_nil hcb (isDigit_not_space (isDigit_iff.2 hcd)) ?_
        rintro rfl
        exact hc hcd
    · rw [← hmap]
      refine items_ints hc hsp rest _ _ fun y hy => ?_
      rw [← List.map_cons (f := fun n : Nat => (n : Int))] at hy
      obtain ⟨n, hn, rfl⟩ := List.mem_map.1 hy
      have := h n hn
      omega

/-- C100: `read_sequence` for an unsigned type accepts exactly the lists of integers from `-max` to `max`; what it stores are the
integers modulo `max + 1`; it throws `std::ios_base::failure` on every other input with a non-blank character. -/
theorem C100_read {max x0 : Nat} {opening closing sep : Char} (ho : isSpace opening = false)
    (hc : isSpace closing = false) (hsp : isSpace sep = false) (hcs : sep ≠ closing)
    (hoc : opening ≠ closing) {s : IStream} (hs : s.Plain) (v : List Nat) (hnb : ¬ Blank s.rest) :
    ∃ res, (∀ fuel, s.rest.length + 2 ≤ fuel →
        readSequence fuel (fun s => s.readUInt max x0) s v opening closing sep = some res) ∧
      ((∃ is s', res = .ok (is.map fun i => (i % (max + 1 : Int)).toNat, s') ∧ s'.good = true ∧
          Sequence (IntItem (-max) max) opening closing sep s.rest is s'.rest) ∨
       (res = .exn .iosFailure ∧
          ∀ is rest, ¬ Sequence (IntItem (-max) max) opening closing sep s.rest is rest)) := by
  obtain ⟨res, hrun, ⟨xs, s', hr, hg, hsq⟩ | ⟨hr, hno⟩⟩ :=
    C20_readSequence (reads_uint max x0) ho hc hsp hcs hoc hs trivial v hnb
  · obtain ⟨is, his⟩ := sequence_int hsq
    have := C20_unique (reads_uint max x0) ho hc hsp hcs hs trivial hsq (sequence_uint his)
    exact ⟨res, hrun, .inl ⟨is, s', by rw [hr, this.1], hg, his⟩⟩
  · exact ⟨res, hrun, .inr ⟨hr, fun is rest h => hno _ _ (sequence_uint h)⟩⟩

example : readVector 20 (fun s => s.readUInt 255 0) (.ofList " [ 1 ,-2,+3,-0]x".toList) [9]
    = some (.ok ([1, 254, 3, 0], ⟨" [ 1 ,-2,+3,-0]".toList.reverse, ['x'], false, false, false, false, true⟩)) := by
  decide +kernel
example : readVector 20 (fun s => s.readUInt 255 0) (.ofList "[1,256]".toList) []
    = some (.exn .iosFailure) := by decide +kernel
example : readVector 20 (fun s => s.readUInt 255 0) (.ofList "[1,-256]".toList) []
    = some (.exn .iosFailure) := by decide +kernel

/-- C100: a written list of unsigned numbers is read back, whatever the container held before, and the text that follows is left
unread. -/
theorem C100_roundTrip {max : Nat} {opening closing sep : Char} (ho : isSpace opening = false)
    (hc : isSpace closing = false) (hsp : isSpace sep = false)
    (hcd : ¬ ('0' ≤ closing ∧ closing ≤ '9')) (hsd : ¬ ('0' ≤ sep ∧ sep ≤ '9'))
    (hcs : sep ≠ closing) (xs : List Nat) (h : ∀ y ∈ xs, y ≤ max) (v : List Nat) (x0 : Nat)
    (following : List Char) (fuel : Nat) (hfuel : xs.length < fuel) :
    ∃ s', readSequence fuel (fun s => s.readUInt max x0)
        (.ofList ((writeSequence putUInt fresh xs opening closing sep).out ++ following)) v
        opening closing sep = some (.ok (xs, s')) ∧ s'.rest = following ∧ s'.good = true := by
  rw [C18_writeSequence writes_uint fresh rfl]
  have hp : (IStream.ofList ((written fresh [opening] (sepText [sep] (xs.map digits) ++ [closing])).out
      ++ following)).Plain := ⟨rfl, rfl, rfl, rfl⟩
  have hback : (xs.map fun n : Nat => (n : Int)).map (fun i => (i % (max + 1 : Int)).toNat) = xs := by
    rw [List.map_map]
    conv => rhs; rw [← List.map_id xs]
    refine List.map_congr_left fun n hn => ?_
    have := h n hn
    simp only [Function.comp, id]
    rw [Int.emod_eq_of_lt (by omega) (by omega)]; rfl
  obtain ⟨t, _, hr⟩ := readSequence_ok (reads_uint max x0) ho hc hsp hcs hp trivial v xs
    (rest := following) (opening := opening) (by
      have := sequence_uint (sequence_nats (max := max) (opening := opening) hc hcd hsd following xs h)
      rw [hback] at this
      simpa [IStream.ofList, written, fresh] using this) fuel hfuel
  exact ⟨_, hr, rfl, (IStream.adv_plain hp _ _).good⟩

/-- C100 through `operator<<` and `operator>>` of `std::vector`. -/
theorem C100_vector {max : Nat} (xs : List Nat) (h : ∀ y ∈ xs, y ≤ max) (v : List Nat) (x0 : Nat)
    (following : List Char) (fuel : Nat) (hfuel : xs.length < fuel) :
    ∃ s', readVector fuel (fun s => s.readUInt max x0)
        (.ofList ((printVector putUInt fresh xs).out ++ following)) v = some (.ok (xs, s')) ∧
      s'.rest = following ∧ s'.good = true := by
  rw [C18_printVector writes_uint fresh rfl, ← C18_writeSequence writes_uint fresh rfl]
  exact C100_roundTrip (by decide) (by decide) (by decide) (by decide) (by decide) (by decide)
    xs h v x0 following fuel hfuel

example : (∀ y ∈ [0, 7, 255], y ≤ 255) ∧ (printVector putUInt fresh [0, 7, 255]).out =
    "[0,7,255]".toList := by decide +kernel

theorem intItem_plus {max : Nat} {inp : List Char} {i : Int} {rest : List Char} (hm : '-' ∉ inp)
    (h : IntItem (-max) max inp i rest) : IntItem 0 max inp i rest ∧ '-' ∉ rest := by
  obtain ⟨b, sign, ds, hb, hsign, hne, hds, hrest, hinp, hx, hlo, hhi⟩ := h
  have h1 : sign ≠ ['-'] := by rintro rfl; exact hm (by rw [hinp]; simp)
  have h2 : '-' ∉ rest := fun h => hm (by rw [hinp]; simp [h])
  rw [if_neg h1] at hx
  exact ⟨⟨b, sign, ds, hb, hsign, hne, hds, hrest, hinp, by rw [if_neg h1]; exact hx, by omega, hhi⟩, h2⟩

theorem items_plus {max : Nat} {closing sep : Char} {inp : List Char} {is : List Int} {rest : List Char}
    (h : Items (IntItem (-max) max) closing sep inp is rest) (hm : '-' ∉ inp) :
    Items (IntItem 0 max) closing sep inp is rest := by
  induction h with
  | last h hb => exact .last (intItem_plus hm h).1 hb
  | more h hb _ ih =>
    obtain ⟨h1, h2⟩ := intItem_plus hm h
    exact .more h1 hb (ih fun h => h2 (by simp [h]))

theorem items_nonneg {max : Nat} {closing sep : Char} {inp : List Char} {is : List Int} {rest : List Char}
    (h : Items (IntItem 0 max) closing sep inp is rest) :
    Items (IntItem (-max) max) closing sep inp is rest ∧ ∀ i ∈ is, 0 ≤ i ∧ i ≤ max := by
  have key : ∀ {inp rest} {i : Int}, IntItem 0 max inp i rest → IntItem (-max) max inp i rest ∧ 0 ≤ i ∧ i ≤ max := by
    rintro inp rest i ⟨b, sign, ds, hb, hsign, hne, hds, hrest, hinp, hx, hlo, hhi⟩
    exact ⟨⟨b, sign, ds, hb, hsign, hne, hds, hrest, hinp, hx, by omega, hhi⟩, hlo, hhi⟩
  induction h with
  | last h hb => exact ⟨.last (key h).1 hb, by simpa using (key h).2⟩
  | more h hb _ ih =>
    refine ⟨.more (key h).1 hb ih.1, fun i hi => ?_⟩
    rcases List.mem_cons.1 hi with rfl | hi
    · exact (key h).2
    · exact ih.2 i hi

/-- C100 without minus signs: `read_sequence` accepts exactly the lists of numbers from `0` to `max` and stores these numbers. -/
theorem C100_plus_partial {max x0 : Nat} {opening closing sep : Char} (ho : isSpace opening = false)
    (hc : isSpace closing = false) (hsp : isSpace sep = false) (hcs : sep ≠ closing)
    (hoc : opening ≠ closing) {s : IStream} (hs : s.Plain) (v : List Nat) (hnb : ¬ Blank s.rest)
    (hm : '-' ∉ s.rest) :
    ∃ res, (∀ fuel, s.rest.length + 2 ≤ fuel →
        readSequence fuel (fun s => s.readUInt max x0) s v opening closing sep = some res) ∧
      ((∃ xs : List Nat, ∃ s', res = .ok (xs, s') ∧ s'.good = true ∧
          Sequence (IntItem 0 max) opening closing sep s.rest (xs.map fun n : Nat => (n : Int)) s'.rest) ∨
       (res = .exn .iosFailure ∧
          ∀ is rest, ¬ Sequence (IntItem 0 max) opening closing sep s.rest is rest)) := by
  have up : ∀ {is rest}, Sequence (IntItem 0 max) opening closing sep s.rest is rest →
      Sequence (IntItem (-max) max) opening closing sep s.rest is rest := by
    rintro is rest ⟨b, body, hb, hinp, h | ⟨hn, hit⟩⟩
    · exact ⟨b, body, hb, hinp, .inl h⟩
    · exact ⟨b, body, hb, hinp, .inr ⟨hn, (items_nonneg hit).1⟩⟩
  obtain ⟨res, hrun, ⟨is, s', hr, hg, hsq⟩ | ⟨hr, hno⟩⟩ := C100_read (max := max) (x0 := x0) ho hc hsp hcs hoc hs v hnb
  · refine ⟨res, hrun, .inl ?_⟩
    obtain ⟨b, body, hb, hinp, ⟨h1, h2⟩ | ⟨hn, hit⟩⟩ := hsq
    · exact ⟨[], s', by rw [hr, h1]; rfl, hg, b, body, hb, hinp, .inl ⟨rfl, h2⟩⟩
    · have hit' := items_plus hit fun h => hm (by rw [hinp]; simp [h])
      have hrange := (items_nonneg hit').2
      have hmap : (is.map fun i : Int => (i % (max + 1)).toNat).map (fun n : Nat => (n : Int)) = is := by
        rw [List.map_map]
        conv => rhs; rw [← List.map_id is]
        refine List.map_congr_left fun i hi => ?_
        have := hrange i hi
        simp only [Function.comp, id]
        rw [Int.emod_eq_of_lt (by omega) (by omega)]; omega
      exact ⟨_, s', hr, hg, b, body, hb, hinp, .inr ⟨hn, by rw [hmap]; exact hit'⟩⟩
  · exact ⟨res, hrun, .inr ⟨hr, fun is rest h => hno _ _ (up h)⟩⟩

example : '-' ∉ "[1,255]".toList ∧ ¬ Blank "[1,255]".toList ∧
    readVector 20 (fun s => s.readUInt 255 0) (.ofList "[1,255]".toList) []
      = some (.ok ([1, 255], ⟨"[1,255]".toList.reverse, [], false, false, false, false, true⟩)) := by
  refine ⟨by decide, fun h => absurd (h '[' (by simp)) (by decide), by decide +kernel⟩

/-- C100: a negative number is not rejected: written by the writer for signed numbers, a list of integers from `-max` to `max`
is read into a container of unsigned numbers without any error, and each negative `i` becomes `max + 1 + i`. -/
theorem C100_negative_refuted {max : Nat} (is : List Int) (h : ∀ i ∈ is, -max ≤ i ∧ i ≤ max) (v : List Nat) (x0 : Nat)
    (following : List Char) (fuel : Nat) (hfuel : is.length < fuel) :
    ∃ s', readVector fuel (fun s => s.readUInt max x0)
        (.ofList ((printVector putInt fresh is).out ++ following)) v =
          some (.ok (is.map fun i : Int => if i < 0 then (max + 1 + i).toNat else i.toNat, s')) ∧
      s'.rest = following ∧ s'.good = true := by
  rw [C18_printVector writes_int fresh rfl]
  have hp : (IStream.ofList ((written fresh ['['] (sepText [','] (is.map intText) ++ [']'])).out
      ++ following)).Plain := ⟨rfl, rfl, rfl, rfl⟩
  have hmap : (is.map fun i : Int => (i % (max + 1)).toNat) =
      is.map fun i : Int => if i < 0 then (max + 1 + i).toNat else i.toNat := by
    refine List.map_congr_left fun i hi => ?_
    have := h i hi
    split
    · rw [← Int.add_emod_right, Int.emod_eq_of_lt (by omega) (by omega), Int.add_comm]
    · rw [Int.emod_eq_of_lt (by omega) (by omega)]
  obtain ⟨t, _, hr⟩ := readSequence_ok (reads_uint max x0) (opening := '[') (closing := ']') (sep := ',') (by decide)
    (by decide) (by decide) (by decide) hp trivial v (is.map fun i : Int => if i < 0 then (max + 1 + i).toNat else i.toNat)
    (rest := following) (by
      have := sequence_uint (sequence_ints (opening := '[') (closing := ']') (sep := ',') (by decide) (by decide)
        (by decide) (by decide) following is h)
      rw [hmap] at this
      simpa [IStream.ofList, written, fresh] using this) fuel (by simpa using hfuel)
  exact ⟨_, hr, rfl, (IStream.adv_plain hp _ _).good⟩

example : readVector 20 (fun s => s.readUInt 4294967295 0) (.ofList "[-1]".toList) []
    = some (.ok ([4294967295], ⟨"[-1]".toList.reverse, [], false, false, false, false, true⟩)) := by decide +kernel

end Seq
end Helper
