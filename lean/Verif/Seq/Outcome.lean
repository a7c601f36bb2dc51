import Verif.Seq.Nested
set_option linter.unusedSectionVars false
/-!
# What is read from a nested vector whose items are misread

As `nest_reads`, for items whose texts are read as another item, or not at all.
-/
namespace Helper.Seq
open IStream OStream

variable {T : Type} {L : Type}

/-- Followed by a delimiter, reading the text ends the reading of the list: it throws, fails, or stops at a character that is neither
blank nor a delimiter. -/
def Breaks (rd : IStream → Option (Res (T × IStream))) (t : List Char) : Prop :=
  ∀ (s : IStream) (d : Char) (r : List Char), s.Plain → (d = ',' ∨ d = ']') → s.rest = t ++ d :: r →
    rd s = some (.exn .iosFailure) ∨
      ∃ y s', rd s = some (.ok (y, s')) ∧
        (s'.failed = true ∨ ∃ t' c r', s' = s.adv t' (c :: r') ∧ isSpace c = false ∧ c ≠ ',' ∧ c ≠ ']')

theorem loopX_breaks {A : Type} {rd : IStream → Option (Res (T × IStream))} {txt : A → List Char} {val : A → T} : ∀ (xs : List A) (b : A) (ys : List A),
    (∀ y ∈ xs, ReadsAs rd (txt y) (val y)) → Breaks rd (txt b) → ∀ (fuel : Nat) (v : List T) (s : IStream) (rest : List Char),
    xs.length + 2 ≤ fuel → s.Plain → s.rest = sepText [','] ((xs ++ b :: ys).map txt) ++ ']' :: rest →
    readLoopX rd ']' ',' fuel ',' v s = some (.exn .iosFailure) := by
  intro xs
  induction xs with
  | nil =>
    intro b ys _ hb fuel v s rest hf hs hr
    obtain ⟨fuel, rfl⟩ : ∃ k, fuel = k + 2 := ⟨fuel - 2, by simp at hf; omega⟩
    obtain ⟨d, r, hd, hr'⟩ : ∃ d r, (d = ',' ∨ d = ']') ∧ s.rest = txt b ++ d :: r := by
      cases ys with
      | nil => exact ⟨']', rest, .inr rfl, by simpa [sepText] using hr⟩
      | cons y ys => exact ⟨',', sepText [','] ((y :: ys).map txt) ++ ']' :: rest, .inl rfl, by simpa [sepText] using hr⟩
    rcases hb s d r hs hd hr' with h | ⟨y, s', h, hf' | ⟨t', c, r', rfl, hc1, hc2, hc3⟩⟩
    · simp [readLoopX, h, hs.eof]
    · simp [readLoopX, h, hs.eof, hf']
    · have hp := adv_plain hs t' (c :: r')
      have h2 := readChar_split hp (b := []) (x := c) (r := r') blank_nil hc1 rfl (some ',')
      have hnf : (s.adv t' (c :: r')).failed = false := by simp only [IStream.failed, hp.fail, hp.bad, Bool.or_self]
      rw [adv_adv] at h2
      have he : (s.adv (t' ++ ([] ++ [c])) r').eof = false := hs.eof
      simp only [readLoopX, h, hs.eof, hnf, h2, he]
      simp [hc2, hc3]
  | cons x xs ih =>
    intro b ys hx hb fuel v s rest hf hs hr
    obtain ⟨fuel, rfl⟩ : ∃ k, fuel = k + 1 := ⟨fuel - 1, by simp at hf; omega⟩
    obtain ⟨z, zs, hz⟩ : ∃ z zs, xs ++ b :: ys = z :: zs := by
      cases xs with
      | nil => exact ⟨b, ys, rfl⟩
      | cons z zs => exact ⟨z, zs ++ b :: ys, rfl⟩
    have hr' : s.rest = txt x ++ ',' :: (sepText [','] ((xs ++ b :: ys).map txt) ++ ']' :: rest) := by
      rw [List.cons_append, hz] at hr
      rw [hz]
      simpa [sepText] using hr
    have h1 := hx x (List.mem_cons_self) s ',' _ hs (.inl rfl) hr'
    have hp := adv_plain hs (txt x) (',' :: (sepText [','] ((xs ++ b :: ys).map txt) ++ ']' :: rest))
    have h2 := readChar_split hp (b := []) (x := ',') blank_nil (by decide) rfl (some ',')
    have hnf : (s.adv (txt x) (',' :: (sepText [','] ((xs ++ b :: ys).map txt) ++ ']' :: rest))).failed = false := by
      simp only [IStream.failed, hp.fail, hp.bad, Bool.or_self]
    rw [adv_adv] at h2
    have h3 := ih b ys (fun y hy => hx y (List.mem_cons_of_mem _ hy)) hb fuel (v ++ [val x])
      (s.adv (txt x ++ ([] ++ [','])) (sepText [','] ((xs ++ b :: ys).map txt) ++ ']' :: rest)) rest (by simp at hf; omega)
      (adv_plain hs _ _) rfl
    rw [readLoopX]
    simp only [h1, hs.eof, hnf, h2, h3]
    simp

/-- The lists of the results, if there are results for all. -/
def listVal {A : Type} (f : A → Option T) : List A → Option (List T)
  | [] => some []
  | x :: xs => match f x, listVal f xs with
    | some y, some ys => some (y :: ys)
    | _, _ => none

/-- A nested vector with other leaves. -/
def nestVal (val : L → Option L) : (d : Nat) → Nest L d → Option (Nest L d)
  | 0, x => val x
  | d + 1, x => listVal (nestVal val d) x

theorem listVal_some {A : Type} {f : A → Option T} : ∀ {xs : List A} {ys : List T}, listVal f xs = some ys →
    (∀ x ∈ xs, f x ≠ none) ∧ ys.map some = xs.map f := by
  intro xs
  induction xs with
  | nil => intro ys h; cases h; exact ⟨by simp, rfl⟩
  | cons x xs ih =>
    intro ys h
    rw [listVal] at h
    split at h
    · rename_i y zs h1 h2
      cases h
      obtain ⟨h3, h4⟩ := ih h2
      refine ⟨fun z hz => ?_, by simp [h1, h4]⟩
      rcases List.mem_cons.1 hz with rfl | hz
      · simp [h1]
      · exact h3 z hz
    · cases h

theorem listVal_none {A : Type} {f : A → Option T} : ∀ {xs : List A}, listVal f xs = none →
    ∃ g b h, xs = g ++ b :: h ∧ f b = none ∧ ∀ x ∈ g, f x ≠ none := by
  intro xs
  induction xs with
  | nil => intro h; cases h
  | cons x xs ih =>
    intro h
    rw [listVal] at h
    cases hx : f x with
    | none => exact ⟨[], x, xs, rfl, hx, by simp⟩
    | some y =>
      cases hxs : listVal f xs with
      | some ys => rw [hx, hxs] at h; cases h
      | none =>
        obtain ⟨g, b, t, rfl, h1, h2⟩ := ih hxs
        refine ⟨x :: g, b, t, rfl, h1, fun z hz => ?_⟩
        rcases List.mem_cons.1 hz with rfl | hz
        · simp [hx]
        · exact h2 z hz

/-- What is read from the text of a nested vector: the vector of what is read from the leaves, if all are read; otherwise the reader throws. -/
theorem nest_outcome {rd : IStream → Option (Res (L × IStream))} {txt : L → List Char} {val : L → Option L} (hb : ∀ x, Begins (txt x)) :
    ∀ (d : Nat) (x : Nest L (d + 1)),
    (∀ y ∈ leaves (d + 1) x, (∀ z, val y = some z → ReadsAs rd (txt y) z) ∧ (val y = none → Breaks rd (txt y))) →
    ∃ n, ∀ fuel, n ≤ fuel → ∀ (s : IStream) (rest : List Char), s.Plain → s.rest = nestText txt (d + 1) x ++ rest →
      (∀ z, nestVal val (d + 1) x = some z → readNest fuel rd (d + 1) s = some (.ok (z, s.adv (nestText txt (d + 1) x) rest))) ∧
      (nestVal val (d + 1) x = none → readNest fuel rd (d + 1) s = some (.exn .iosFailure)) := by
  have list : ∀ (d : Nat), (∀ x : Nest L d, (∀ y ∈ leaves d x, (∀ z, val y = some z → ReadsAs rd (txt y) z) ∧ (val y = none → Breaks rd (txt y))) →
        ∃ n, ∀ fuel, n ≤ fuel → (∀ z, nestVal val d x = some z → ReadsAs (readNest fuel rd d) (nestText txt d x) z) ∧
          (nestVal val d x = none → Breaks (readNest fuel rd d) (nestText txt d x))) →
      ∀ x : Nest L (d + 1), (∀ y ∈ leaves (d + 1) x, (∀ z, val y = some z → ReadsAs rd (txt y) z) ∧ (val y = none → Breaks rd (txt y))) →
      ∃ n, ∀ fuel, n ≤ fuel → ∀ (s : IStream) (rest : List Char), s.Plain → s.rest = nestText txt (d + 1) x ++ rest →
        (∀ z, nestVal val (d + 1) x = some z → readNest fuel rd (d + 1) s = some (.ok (z, s.adv (nestText txt (d + 1) x) rest))) ∧
        (nestVal val (d + 1) x = none → readNest fuel rd (d + 1) s = some (.exn .iosFailure)) := by
    intro d hd x hx
    have hall : ∀ xs : List (Nest L d), (∀ z ∈ xs, z ∈ x) →
        ∃ n, ∀ fuel, n ≤ fuel → ∀ w ∈ xs, (∀ z, nestVal val d w = some z → ReadsAs (readNest fuel rd d) (nestText txt d w) z) ∧
          (nestVal val d w = none → Breaks (readNest fuel rd d) (nestText txt d w)) := by
      intro xs
      induction xs with
      | nil => intro _; exact ⟨0, fun _ _ z hz => by cases hz⟩
      | cons z zs ih =>
        intro hsub
        obtain ⟨n1, h1⟩ := ih fun w hw => hsub w (List.mem_cons_of_mem _ hw)
        obtain ⟨n2, h2⟩ := hd z fun y hy => hx y (List.mem_flatten.2 ⟨_, List.mem_map_of_mem (hsub z List.mem_cons_self), hy⟩)
        refine ⟨max n1 n2, fun fuel hf w hw => ?_⟩
        rcases List.mem_cons.1 hw with rfl | hw
        · exact h2 fuel (by omega)
        · exact h1 fuel (by omega) w hw
    obtain ⟨n, hn⟩ := hall x fun _ h => h
    refine ⟨n + x.length + 2, fun fuel hf s rest hs hr => ?_⟩
    cases x with
    | nil =>
      have hr' : s.rest = '[' :: ']' :: rest := by simpa [nestText, sepText] using hr
      have h1 := readChar_split hs (b := []) (x := '[') blank_nil (by decide) hr' none
      have hp1 := adv_plain hs ['['] (']' :: rest)
      have h2 := readChar_split hp1 (b := []) (x := ']') (r := rest) blank_nil (by decide) rfl (some '[')
      simp only [List.nil_append, adv_adv] at h1 h2
      obtain ⟨fuel, rfl⟩ : ∃ k, fuel = k + 1 := ⟨fuel - 1, by omega⟩
      refine ⟨fun z hz => ?_, fun h => by cases h⟩
      cases hz
      simp [readNest, readSequenceX, h1, h2, readLoopX, nestText, sepText]
    | cons z zs =>
      have hr' : s.rest = '[' :: (sepText [','] ((z :: zs).map (nestText txt d)) ++ (']' :: rest)) := by simpa [nestText] using hr
      have hb' : Begins (sepText [','] ((z :: zs).map (nestText txt d))) := begins_sep (begins_nest hb d z)
      have h1 := sequenceX_start (rd := readNest fuel rd d) hs hb' hr' fuel
      have hn' := hn fuel (by omega)
      constructor
      · intro u hu
        obtain ⟨h2, h3⟩ := listVal_some (xs := z :: zs) hu
        have h0 : (nestVal val d z).isSome = true := by
          cases e : nestVal val d z with
          | none => exact absurd e (h2 z List.mem_cons_self)
          | some _ => rfl
        have hg := loopX_vals (rd := readNest fuel rd d) (txt := nestText txt d) (val := fun y => (nestVal val d y).getD ((nestVal val d z).get h0)) z zs
          (fun y hy => by
            cases e : nestVal val d y with
            | none => exact absurd e (h2 y hy)
            | some w => exact (hn' y hy).1 w e) fuel [] (s.adv ['['] (sepText [','] ((z :: zs).map (nestText txt d)) ++ (']' :: rest))) rest
          (by simp at hf; omega) (adv_plain hs _ _) rfl
        have hmap : (z :: zs).map (fun y => (nestVal val d y).getD ((nestVal val d z).get h0)) = u := by
          have inj : ∀ {a b : List (Nest L d)}, a.map some = b.map some → a = b := by
            intro a b h
            exact (List.map_inj_right (fun _ _ h => Option.some.inj h)).1 h
          apply inj
          rw [h3, List.map_map]
          apply List.map_congr_left
          intro y hy
          cases e : nestVal val d y with
          | none => exact absurd e (h2 y hy)
          | some w => simp [e]
        rw [hmap, adv_adv] at hg
        show readSequenceX fuel (readNest fuel rd d) s '[' ']' ',' = _
        rw [h1, hg]
        rfl
      · intro hu
        obtain ⟨g, b, h, he, hbn, hgs⟩ := listVal_none (xs := z :: zs) hu
        show readSequenceX fuel (readNest fuel rd d) s '[' ']' ',' = _
        have hmem : ∀ y ∈ g, y ∈ z :: zs := fun y hy => by rw [he]; exact List.mem_append_left _ hy
        have hbm : b ∈ z :: zs := by rw [he]; simp
        have hlen : g.length ≤ zs.length := by
          have := congrArg List.length he
          simp at this
          omega
        rw [h1]
        rw [he]
        refine loopX_breaks (val := fun y => (nestVal val d y).getD z) g b h (fun y hy => ?_) ((hn' b hbm).2 hbn) fuel []
          (s.adv ['['] (sepText [','] ((g ++ b :: h).map (nestText txt d)) ++ (']' :: rest))) rest (by simp at hf; omega) (adv_plain hs _ _) rfl
        cases e : nestVal val d y with
        | none => exact absurd e (hgs y hy)
        | some w => exact (hn' y (hmem y hy)).1 w e
  have all : ∀ d (x : Nest L d), (∀ y ∈ leaves d x, (∀ z, val y = some z → ReadsAs rd (txt y) z) ∧ (val y = none → Breaks rd (txt y))) →
        ∃ n, ∀ fuel, n ≤ fuel → (∀ z, nestVal val d x = some z → ReadsAs (readNest fuel rd d) (nestText txt d x) z) ∧
          (nestVal val d x = none → Breaks (readNest fuel rd d) (nestText txt d x)) := by
    intro d
    induction d with
    | zero => intro x hx; exact ⟨0, fun _ _ => hx x (by simp [leaves])⟩
    | succ d ih =>
      intro x hx
      obtain ⟨n, hn⟩ := list d ih x hx
      exact ⟨n, fun fuel hf => ⟨fun z hz s c r hs _ hr => (hn fuel hf s _ hs hr).1 z hz,
        fun hz s c r hs _ hr => .inl ((hn fuel hf s _ hs hr).2 hz)⟩⟩
  exact fun d => list d (all d)

/-- The vector read is the one written exactly if this holds for the leaves. -/
theorem nestVal_self {val : L → Option L} : ∀ (d : Nat) (x : Nest L d), nestVal val d x = some x ↔ ∀ y ∈ leaves d x, val y = some y := by
  intro d
  induction d with
  | zero => intro x; simp [nestVal, leaves]
  | succ d ih =>
    intro x
    have key : ∀ xs : List (Nest L d), listVal (nestVal val d) xs = some xs ↔ ∀ z ∈ xs, nestVal val d z = some z := by
      intro xs
      induction xs with
      | nil => simp [listVal]
      | cons z zs ihz =>
        rw [listVal]
        constructor
        · intro h
          split at h
          · rename_i y ys h1 h2
            injection h with h
            injection h with e1 e2
            subst e1; subst e2
            intro w hw
            rcases List.mem_cons.1 hw with rfl | hw
            · exact h1
            · exact ihz.1 h2 w hw
          · cases h
        · intro h
          rw [h z List.mem_cons_self, ihz.2 fun w hw => h w (List.mem_cons_of_mem _ hw)]
    show listVal (nestVal val d) x = some x ↔ _
    rw [key x]
    constructor
    · intro h y hy
      obtain ⟨l, hl, hy⟩ := List.mem_flatten.1 hy
      obtain ⟨z, hz, rfl⟩ := List.mem_map.1 hl
      exact (ih z).1 (h z hz) y hy
    · intro h z hz
      exact (ih z).2 fun y hy => h y (List.mem_flatten.2 ⟨_, List.mem_map_of_mem hz, hy⟩)

end Helper.Seq
