import Verif.Seq.Nested
set_option linter.unusedSectionVars false
/-!
# Reading nested vectors some of whose elements may not be readable

Used for vectors of `double` (C129).
-/
namespace Helper.Seq
open IStream OStream

variable {T L A : Type}

/-- Specification: the elements are replaced by what they are read as; nothing if one of them cannot be read. -/
def readable (val : A → Option L) : (d : Nat) → Nest A d → Option (Nest L d)
  | 0, x => val x
  | d + 1, x => collect (readable val d) x
where
  collect {X Y : Type} (f : X → Option Y) : List X → Option (List Y)
    | [] => some []
    | x :: xs => (f x).bind fun y => (collect f xs).map (y :: ·)

/-- Followed by a delimiter, reading the text throws or sets failbit. -/
def Fails (rd : IStream → Option (Res (T × IStream))) (t : List Char) : Prop :=
  ∀ (s : IStream) (d : Char) (r : List Char), s.Plain → (d = ',' ∨ d = ']') → s.rest = t ++ d :: r →
    rd s = some (.exn .iosFailure) ∨ ∃ y s', rd s = some (.ok (y, s')) ∧ s'.failed = true

/-- The text is read as the value given, or fails to be read. -/
def ReadsOr (rd : IStream → Option (Res (T × IStream))) (t : List Char) : Option T → Prop
  | some y => ReadsAs rd t y
  | none => Fails rd t

theorem loopX_total {rd : IStream → Option (Res (T × IStream))} {txt : A → List Char} {val : A → Option T} : ∀ (x : A) (xs : List A),
    (∀ y ∈ x :: xs, ReadsOr rd (txt y) (val y)) → ∀ (fuel : Nat) (v : List T) (s : IStream) (rest : List Char), xs.length + 2 ≤ fuel → s.Plain →
    s.rest = sepText [','] ((x :: xs).map txt) ++ ']' :: rest →
    readLoopX rd ']' ',' fuel ',' v s = match readable.collect val (x :: xs) with
      | some ys => some (.ok (v ++ ys, s.adv (sepText [','] ((x :: xs).map txt) ++ [']']) rest))
      | none => some (.exn .iosFailure) := by
  intro x xs
  induction xs generalizing x with
  | nil =>
    intro hx fuel v s rest hf hs hr
    obtain ⟨fuel, rfl⟩ : ∃ k, fuel = k + 2 := ⟨fuel - 2, by simp at hf; omega⟩
    simp only [List.map_cons, List.map_nil, sepText] at hr ⊢
    have h0 := hx x List.mem_cons_self
    cases hv : val x with
    | some y =>
      rw [hv] at h0
      have h1 := h0 s ']' rest hs (.inr rfl) hr
      have hp := adv_plain hs (txt x) (']' :: rest)
      have h2 := readChar_split hp (b := []) (x := ']') (r := rest) blank_nil (by decide) rfl (some ',')
      have hnf : (s.adv (txt x) (']' :: rest)).failed = false := by simp only [IStream.failed, hp.fail, hp.bad, Bool.or_self]
      rw [adv_adv] at h2
      simp only [readLoopX, h1, hs.eof, hnf, h2, readable.collect, hv]
      simp
    | none =>
      rw [hv] at h0
      simp only [readable.collect, hv, Option.bind_none]
      rcases h0 s ']' rest hs (.inr rfl) hr with h | ⟨y, s', h, hf'⟩
      · simp [readLoopX, h, hs.eof]
      · simp [readLoopX, h, hs.eof, hf']
  | cons z zs ih =>
    intro hx fuel v s rest hf hs hr
    obtain ⟨fuel, rfl⟩ : ∃ k, fuel = k + 1 := ⟨fuel - 1, by simp at hf; omega⟩
    simp only [List.map_cons, sepText] at hr ⊢
    have hr' : s.rest = txt x ++ ',' :: (sepText [','] ((z :: zs).map txt) ++ ']' :: rest) := by simpa using hr
    have h0 := hx x List.mem_cons_self
    cases hv : val x with
    | none =>
      rw [hv] at h0
      simp only [readable.collect, hv, Option.bind_none]
      rcases h0 s ',' _ hs (.inl rfl) hr' with h | ⟨y, s', h, hf'⟩
      · simp [readLoopX, h, hs.eof]
      · simp [readLoopX, h, hs.eof, hf']
    | some y =>
      rw [hv] at h0
      have h1 := h0 s ',' _ hs (.inl rfl) hr'
      have hp := adv_plain hs (txt x) (',' :: (sepText [','] ((z :: zs).map txt) ++ ']' :: rest))
      have h2 := readChar_split hp (b := []) (x := ',') blank_nil (by decide) rfl (some ',')
      have hnf : (s.adv (txt x) (',' :: (sepText [','] ((z :: zs).map txt) ++ ']' :: rest))).failed = false := by
        simp only [IStream.failed, hp.fail, hp.bad, Bool.or_self]
      rw [adv_adv] at h2
      have h3 := ih z (fun y hy => hx y (List.mem_cons_of_mem _ hy)) fuel (v ++ [y])
        (s.adv (txt x ++ ([] ++ [','])) (sepText [','] ((z :: zs).map txt) ++ ']' :: rest)) rest (by simp at hf; omega)
        (adv_plain hs _ _) rfl
      rw [adv_adv] at h3
      rw [readLoopX]
      simp only [h1, hs.eof, hnf, h2, h3]
      have hc : readable.collect val (x :: z :: zs) = (readable.collect val (z :: zs)).map (y :: ·) := by
        rw [readable.collect, hv, Option.bind_some]
      rw [hc]
      cases readable.collect val (z :: zs) with
      | none => simp
      | some ys => simp

/-- A nested vector is read as what its elements are read as; if one of them cannot be read, an exception is thrown. -/
theorem nest_total {rd : IStream → Option (Res (L × IStream))} {txt : A → List Char} {val : A → Option L} (hb : ∀ x, Begins (txt x)) :
    ∀ (d : Nat) (x : Nest A (d + 1)), (∀ y ∈ leaves (d + 1) x, ReadsOr rd (txt y) (val y)) →
    ∃ n, ∀ fuel, n ≤ fuel → ∀ (s : IStream) (rest : List Char), s.Plain → s.rest = nestText txt (d + 1) x ++ rest →
      readNest fuel rd (d + 1) s = match readable val (d + 1) x with
        | some y => some (.ok (y, s.adv (nestText txt (d + 1) x) rest))
        | none => some (.exn .iosFailure) := by
  have list : ∀ (d : Nat), (∀ x : Nest A d, (∀ y ∈ leaves d x, ReadsOr rd (txt y) (val y)) →
        ∃ n, ∀ fuel, n ≤ fuel → ReadsOr (readNest fuel rd d) (nestText txt d x) (readable val d x)) →
      ∀ x : Nest A (d + 1), (∀ y ∈ leaves (d + 1) x, ReadsOr rd (txt y) (val y)) → ∃ n, ∀ fuel, n ≤ fuel → ∀ (s : IStream) (rest : List Char), s.Plain → s.rest = nestText txt (d + 1) x ++ rest →
        readNest fuel rd (d + 1) s = match readable val (d + 1) x with
          | some y => some (.ok (y, s.adv (nestText txt (d + 1) x) rest))
          | none => some (.exn .iosFailure) := by
    intro d hd x hx
    have hall : ∀ xs : List (Nest A d), (∀ z ∈ xs, z ∈ x) → ∃ n, ∀ fuel, n ≤ fuel → ∀ z ∈ xs,
        ReadsOr (readNest fuel rd d) (nestText txt d z) (readable val d z) := by
      intro xs
      induction xs with
      | nil => intro _; exact ⟨0, fun _ _ z hz => by cases hz⟩
      | cons z zs ih =>
        intro hsub
        obtain ⟨n1, h1⟩ := ih fun w hw => hsub w (List.mem_cons_of_mem _ hw)
        obtain ⟨n2, h2⟩ := hd z fun y hy => hx y (List.mem_flatten.2 ⟨_, List.mem_map_of_mem (hsub z List.mem_cons_self), hy⟩)
        refine ⟨max n1 n2, fun fuel hf w hw => ?_⟩
        rcases List.mem_cons.1 hw with rfl | hw
        · exact h2 fuel (by omega)
        · exact h1 fuel (by omega) w hw
    obtain ⟨n, hn⟩ := hall x fun _ h => h
    refine ⟨n + x.length + 2, fun fuel hf s rest hs hr => ?_⟩
    cases x with
    | nil =>
      have hr' : s.rest = '[' :: ']' :: rest := by simpa [nestText, sepText] using hr
      have h1 := readChar_split hs (b := []) (x := '[') blank_nil (by decide) hr' none
      have hp1 := adv_plain hs ['['] (']' :: rest)
      have h2 := readChar_split hp1 (b := []) (x := ']') (r := rest) blank_nil (by decide) rfl (some '[')
      simp only [List.nil_append, adv_adv] at h1 h2
      obtain ⟨fuel, rfl⟩ : ∃ k, fuel = k + 1 := ⟨fuel - 1, by omega⟩
      simp [readNest, readSequenceX, h1, h2, readLoopX, nestText, sepText, readable, readable.collect]
    | cons z zs =>
      have hr' : s.rest = '[' :: (sepText [','] ((z :: zs).map (nestText txt d)) ++ (']' :: rest)) := by simpa [nestText] using hr
      have hb' : Begins (sepText [','] ((z :: zs).map (nestText txt d))) := begins_sep (begins_nest hb d z)
      have h1 := sequenceX_start (rd := readNest fuel rd d) hs hb' hr' fuel
      have h2 := loopX_total z zs (hn fuel (by omega)) fuel [] (s.adv ['['] (sepText [','] ((z :: zs).map (nestText txt d)) ++ (']' :: rest))) rest
        (by simp at hf; omega) (adv_plain hs _ _) rfl
      rw [adv_adv] at h2
      show readSequenceX fuel (readNest fuel rd d) s '[' ']' ',' = _
      rw [h1, h2]
      simp only [readable]
      cases readable.collect (readable val d) (z :: zs) <;> rfl
  have all : ∀ d (x : Nest A d), (∀ y ∈ leaves d x, ReadsOr rd (txt y) (val y)) → ∃ n, ∀ fuel, n ≤ fuel → ReadsOr (readNest fuel rd d) (nestText txt d x) (readable val d x) := by
    intro d
    induction d with
    | zero => intro x hx; exact ⟨0, fun _ _ => hx x (by simp [leaves])⟩
    | succ d ih =>
      intro x hx
      obtain ⟨n, hn⟩ := list d ih x hx
      refine ⟨n, fun fuel hf => ?_⟩
      have h := fun s c r hs hr => hn fuel hf s (c :: r) hs hr
      cases hy : readable val (d + 1) x with
      | some y =>
        intro s c r hs _ hr
        rw [h s c r hs hr, hy]
      | none =>
        intro s c r hs _ hr
        left
        rw [h s c r hs hr, hy]
  exact fun d => list d (all d)

/-- Elements that are all read as themselves. -/
theorem readable_self {val : L → Option L} : ∀ (d : Nat) (x : Nest L d), (∀ y ∈ leaves d x, val y = some y) → readable val d x = some x := by
  intro d
  induction d with
  | zero => intro x h; exact h x (by simp [leaves])
  | succ d ih =>
    intro x h
    simp only [readable]
    induction x with
    | nil => rfl
    | cons z zs ihx =>
      have hz := ih z fun y hy => h y (by simp only [leaves, List.map_cons, List.flatten_cons, List.mem_append]; exact .inl hy)
      have hzs := ihx fun y hy => h y (by simp only [leaves, List.map_cons, List.flatten_cons, List.mem_append] at hy ⊢; exact .inr hy)
      rw [readable.collect, hz, hzs]
      rfl

/-- One element that cannot be read is enough. -/
theorem readable_none {val : A → Option L} : ∀ (d : Nat) (x : Nest A d), readable val d x = none ↔ ∃ y ∈ leaves d x, val y = none := by
  intro d
  induction d with
  | zero => intro x; simp [leaves, readable]
  | succ d ih =>
    intro x
    simp only [readable]
    induction x with
    | nil => simp [leaves, readable.collect]
    | cons z zs ihx =>
      have e : leaves (d + 1) (z :: zs) = leaves d z ++ leaves (d + 1) zs := rfl
      rw [e, readable.collect]
      cases hz : readable val d z with
      | none =>
        obtain ⟨y, hy, h⟩ := (ih z).1 hz
        simp only [Option.bind_none, true_iff]
        exact ⟨y, List.mem_append.2 (.inl hy), h⟩
      | some w =>
        rw [Option.bind_some, Option.map_eq_none_iff, ihx]
        constructor
        · rintro ⟨y, hy, h⟩; exact ⟨y, List.mem_append.2 (.inr hy), h⟩
        · rintro ⟨y, hy, h⟩
          rcases List.mem_append.1 hy with hy | hy
          · have := (ih z).2 ⟨y, hy, h⟩
            rw [hz] at this; cases this
          · exact ⟨y, hy, h⟩

end Helper.Seq
