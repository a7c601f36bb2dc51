import Verif.Link.Lemmas

set_option linter.unusedSectionVars false

/-!
# C116 and C117: headers in programs

C116: the headers can be included in any number of translation units of a program.
C117: the headers can be included in any order.
-/

namespace Helper.Link

/-! ## Units -/

def top (hs : List Hdr) : List Tok × List Hdr := preLines (preInc depth) [] (hs.map .inc)

theorem unit_eq (hs : List Hdr) : unit hs = (top hs).1 := rfl

theorem top_rank (hs : List Hdr) : ∀ g, Line.inc g ∈ hs.map Line.inc → rank g < 4 :=
  fun g _ => rank_lt g

theorem preLines_append {inc : List Hdr → Hdr → List Tok × List Hdr} :
    ∀ (l1 l2 : List Line) (seen : List Hdr),
      preLines inc seen (l1 ++ l2)
        = ((preLines inc seen l1).1 ++ (preLines inc (preLines inc seen l1).2 l2).1,
            (preLines inc (preLines inc seen l1).2 l2).2) := by
  intro l1
  induction l1 with
  | nil => intro l2 seen; rfl
  | cons l l1 ih =>
    intro l2 seen
    cases l <;> simp [preLines, ih]

theorem top_append (pre : List Hdr) (h : Hdr) (post : List Hdr) :
    (top (pre ++ h :: post)).1 = (top pre).1 ++ ((preInc depth (top pre).2 h).1
      ++ (preLines (preInc depth) (preInc depth (top pre).2 h).2 (post.map .inc)).1) := by
  simp only [top, List.map_append, List.map_cons, preLines_append, preLines]

theorem top_done (hs : List Hdr) : Done 4 (top hs).2 (top hs).1 ∧
    ∀ g ∈ hs, ∀ t ∈ toks g, t ∈ (top hs).1 := by
  have h := (comp.2 4 (hs.map .inc) [] (top_rank hs)).2 [] (by intro g hg; simp at hg)
  refine ⟨by simpa [top] using h.1, fun g hg t ht => ?_⟩
  simpa [top] using h.2.2 g (List.mem_map.mpr ⟨g, hg, rfl⟩) t ht

theorem top_toks (hs : List Hdr) : ∀ t ∈ (top hs).1, ∃ g ∈ hs, t ∈ toks g := by
  intro t ht
  rcases (bound.2 4 (hs.map .inc) [] (top_rank hs)).1 t ht with ⟨l, hl, e⟩ | ⟨g, hg, e⟩
  · obtain ⟨x, _, rfl⟩ := List.mem_map.mp hl
    simp [Line.tok] at e
  · obtain ⟨x, hx, e'⟩ := List.mem_map.mp hg
    cases e'
    exact ⟨g, hx, e⟩

theorem top_seen (hs : List Hdr) : ∀ g ∈ (top hs).2, ∃ h ∈ hs, g ∈ under h := by
  intro g hg
  rcases (bound.2 4 (hs.map .inc) [] (top_rank hs)).2.1 g hg with h | ⟨g', hg', e⟩
  · simp at h
  · obtain ⟨x, hx, e'⟩ := List.mem_map.mp hg'
    cases e'
    exact ⟨g', hx, e⟩

theorem top_guarded (hs : List Hdr) {g : Hdr} (hg : g ∈ hs) (hgd : guarded g = true) :
    g ∈ (top hs).2 :=
  (bound.2 4 (hs.map .inc) [] (top_rank hs)).2.2.2.2 g (List.mem_map.mpr ⟨g, hg, rfl⟩) hgd

theorem toks_std {h : Hdr} {s : Std} : Tok.std s ∈ toks h ↔ ReadsStd h s := by
  constructor
  · intro ht
    obtain ⟨g, hg, l, hl, e⟩ := toks_mem ht
    cases l <;> simp [Line.tok] at e
    subst e
    exact ⟨g, hg, hl⟩
  · rintro ⟨g, hg, hl⟩
    exact List.mem_flatMap.mpr ⟨g, hg, List.mem_filterMap.mpr ⟨_, hl, rfl⟩⟩

theorem toks_defines {h : Hdr} {e : Ent} : Tok.defines e ∈ toks h ↔ Defines h e := by
  constructor
  · intro ht
    obtain ⟨g, hg, l, hl, e'⟩ := toks_mem ht
    cases l <;> simp [Line.tok] at e'
    subst e'
    exact ⟨g, hg, hl⟩
  · rintro ⟨g, hg, hl⟩
    exact List.mem_flatMap.mpr ⟨g, hg, List.mem_filterMap.mpr ⟨_, hl, rfl⟩⟩

/-- The names of the standard library and the two missing ones are not declared by the headers. -/
theorem toks_declares (h : Hdr) : Tok.declares .ostream ∉ toks h ∧
    Tok.declares .globalAbort ∉ toks h ∧ Tok.declares .stringType ∉ toks h := by
  cases h <;> decide

theorem accepts_needs {lib : Lib} : ∀ (ts b : List Tok) (n : Nm), accepts lib b ts = true →
    Tok.needs n ∈ ts → ∃ t ∈ b ++ ts, Tok.gives lib n t = true := by
  intro ts
  induction ts with
  | nil => intro b n _ h; simp at h
  | cons t ts ih =>
    intro b n ha hn
    rw [accepts_cons] at ha
    rcases List.mem_cons.mp hn with rfl | hn
    · obtain ⟨t, ht, e⟩ := List.any_eq_true.mp (ha.1 n rfl)
      exact ⟨t, List.mem_append.mpr (.inl ht), e⟩
    · obtain ⟨t', ht', e⟩ := ih (t :: b) n ha.2 hn
      refine ⟨t', ?_, e⟩
      simp at ht' ⊢
      grind

/-! ## C117 -/

/-- The number of headers the preprocessor may nest is never reached: with any greater bound it
does the same. -/
theorem C117_depth (n : Nat) (hn : 4 ≤ n) (seen : List Hdr) (hs : List Hdr) :
    preLines (preInc n) seen (hs.map .inc) = preLines (preInc 4) seen (hs.map .inc) :=
  preLines_congr _ _ (fun g _ s => preInc_depth n 4 g s (by have := rank_lt g; omega) (rank_lt g))

theorem step_ok {lib : Lib} (hl : Usual lib) (pre : List Hdr) (h : Hdr) (hb : h ≠ .binaryWord)
    (hw : h = .writable → h ∉ pre → Hdr.handle ∉ pre → Brings lib (pre ++ [.writable]) .ostream)
    (hv : h = .variantInl → h ∉ pre → Brings lib (pre ++ [.variantInl]) .globalAbort) :
    accepts lib (top pre).1 (preInc depth (top pre).2 h).1 = true := by
  refine acc hl h (top pre).2 4 (top pre).1 (rank_lt h) (top_done pre).1 hb ?_
  intro hn n hne
  have hx : extra h ≠ [] := by intro e; rw [e] at hne; simp at hne
  have hp : guarded h = true → h ∉ pre := fun hg hp => hn (top_guarded pre hp hg)
  have conv : Brings lib (pre ++ [h]) n → known lib ((top pre).1 ++ extraToks h) n := by
    rintro ⟨g, hg, s, hr, hs⟩
    refine List.any_eq_true.mpr ⟨.std s, ?_, hs⟩
    rcases List.mem_append.mp hg with hg | hg
    · exact List.mem_append.mpr (.inl ((top_done pre).2 g hg _ (toks_std.mpr hr)))
    · simp at hg
      subst hg
      exact List.mem_append.mpr (.inr (extraToks_std g hx _ (toks_std.mpr hr) s rfl))
  cases h <;> simp [extra] at hne <;> subst hne
  · exact conv (hv rfl (hp rfl))
  · by_cases hh : Hdr.handle ∈ pre
    · refine List.any_eq_true.mpr ⟨.std .iostream, ?_, hl.least _ _ (by decide)⟩
      exact List.mem_append.mpr (.inl ((top_done pre).2 _ hh _ (by decide)))
    · exact conv (hw rfl (hp rfl) hh)

/-- Which lists of headers can be included, in their order: those without `binary_word.hpp`, and with
some header before `writable.hpp` (unless `handle.hpp`, which includes it, or itself came earlier)
that brings `std::ostream`, and before `variant.inl.hpp` that brings `abort`. -/
theorem C117_order_partial (lib : Lib) (hl : Usual lib) (hs : List Hdr) :
    compiles lib hs = true ↔
      Hdr.binaryWord ∉ hs ∧
      (∀ pre post, hs = pre ++ .writable :: post → Hdr.writable ∉ pre → Hdr.handle ∉ pre →
        Brings lib (pre ++ [.writable]) .ostream) ∧
      (∀ pre post, hs = pre ++ .variantInl :: post → Hdr.variantInl ∉ pre →
        Brings lib (pre ++ [.variantInl]) .globalAbort) := by
  unfold compiles
  rw [unit_eq]
  constructor
  · intro ha
    have need : ∀ (pre post : List Hdr) (h : Hdr) (n : Nm), hs = pre ++ h :: post →
        h ∉ (top pre).2 → Line.needs n ∈ text h → (∀ g, Tok.declares n ∉ toks g) →
        Brings lib (pre ++ [h]) n := by
      intro pre post h n e hn ht hd
      rw [e, top_append, accepts_append, accepts_append] at ha
      obtain ⟨t, ht, hg⟩ := accepts_needs _ _ n ha.2.1
        ((bound.1 h (top pre).2).2.2.2.2 hn _ ht _ rfl)
      have : ∃ g ∈ pre ++ [h], t ∈ toks g := by
        rcases List.mem_append.mp ht with ht | ht
        · simp at ht
          obtain ⟨g, hg, e⟩ := top_toks pre t ht
          exact ⟨g, List.mem_append.mpr (.inl hg), e⟩
        · exact ⟨h, by simp, (bound.1 h (top pre).2).1 t ht⟩
      obtain ⟨g, hgm, htg⟩ := this
      cases t with
      | std s => exact ⟨g, hgm, s, toks_std.mp htg, hg⟩
      | declares m =>
        simp [Tok.gives] at hg
        subst hg
        exact absurd htg (hd g)
      | needs m => simp [Tok.gives] at hg
      | defines m => simp [Tok.gives] at hg
    refine ⟨?_, ?_, ?_⟩
    · intro hb
      obtain ⟨t, ht, hg⟩ := accepts_needs _ _ .stringType ha
        ((top_done hs).2 _ hb _ (by decide))
      simp at ht
      obtain ⟨g, _, htg⟩ := top_toks hs t ht
      cases t with
      | std s => simp [Tok.gives, hl.noStringType] at hg
      | declares m =>
        simp [Tok.gives] at hg
        subst hg
        exact (toks_declares g).2.2 htg
      | needs m => simp [Tok.gives] at hg
      | defines m => simp [Tok.gives] at hg
    · intro pre post e hw hh
      refine need pre post _ _ e ?_ (by decide) (fun g => (toks_declares g).1)
      intro hs'
      obtain ⟨g, hg, hu⟩ := top_seen pre _ hs'
      have : ∀ g, Hdr.writable ∈ under g → g = .writable ∨ g = .handle := by
        intro g; cases g <;> decide
      rcases this g hu with rfl | rfl
      · exact hw hg
      · exact hh hg
    · intro pre post e hw
      refine need pre post _ _ e ?_ (by decide) (fun g => (toks_declares g).2.1)
      intro hs'
      obtain ⟨g, hg, hu⟩ := top_seen pre _ hs'
      have : ∀ g, Hdr.variantInl ∈ under g → g = .variantInl := by
        intro g; cases g <;> decide
      rw [this g hu] at hg
      exact hw hg
  · rintro ⟨hb, hw, hv⟩
    have main : ∀ (post pre : List Hdr), hs = pre ++ post →
        accepts lib (top pre).1 (preLines (preInc depth) (top pre).2 (post.map .inc)).1 = true := by
      intro post
      induction post with
      | nil => intro pre _; rfl
      | cons h post ih =>
        intro pre e
        have h1 := step_ok hl pre h (fun hh => hb (by rw [e, hh]; simp))
          (fun hh hp => by subst hh; exact hw pre post e hp)
          (fun hh hp => by subst hh; exact hv pre post e hp)
        have h2 := ih (pre ++ [h]) (by simp [e])
        have e1 : (top (pre ++ [h])).1 = (top pre).1 ++ (preInc depth (top pre).2 h).1 := by
          rw [top_append]; simp [preLines]
        have e2 : (top (pre ++ [h])).2 = (preInc depth (top pre).2 h).2 := by
          simp [top, preLines_append, preLines]
        rw [e1, e2] at h2
        show accepts lib (top pre).1 ((preInc depth (top pre).2 h).1
          ++ (preLines (preInc depth) (preInc depth (top pre).2 h).2 (post.map .inc)).1) = true
        exact (accepts_append _ _ _).mpr ⟨h1, h2⟩
    have := main hs [] rfl
    exact this

/-- The other eighteen headers can be included in any order, any number of times. -/
theorem C117_others_partial (lib : Lib) (hl : Usual lib) (hs : List Hdr)
    (h1 : Hdr.binaryWord ∉ hs) (h2 : Hdr.writable ∉ hs) (h3 : Hdr.variantInl ∉ hs) :
    compiles lib hs = true := by
  rw [C117_order_partial lib hl]
  refine ⟨h1, ?_, ?_⟩
  · intro pre post e; exact absurd (by rw [e]; simp) h2
  · intro pre post e; exact absurd (by rw [e]; simp) h3

/-- A library with just the usual names, and `abort` in `<cstdlib>`. -/
def plainLib : Lib := fun s n => decide (n ∈ usual s) || (s == .cstdlib && n == .globalAbort)

theorem plainLib_usual : Usual plainLib where
  least := by intro s n h; simp [plainLib, h]
  noStringType := by intro s; cases s <;> decide

/-- Not every header can be included alone, or before others: `writable.hpp` names `std::ostream`
and includes no header that declares it, `variant.inl.hpp` calls `abort`, and `binary_word.hpp`
names a type `StringType` that no header declares. -/
theorem C117_refuted : ∃ lib, Usual lib ∧
    compiles lib [.writable] = false ∧ compiles lib [.writable, .container] = false ∧
    compiles lib [.container, .writable] = true ∧
    compiles lib [.variantInl] = false ∧ compiles lib [.test, .variantInl] = true ∧
    ∀ hs, Hdr.binaryWord ∈ hs → compiles lib hs = false := by
  refine ⟨plainLib, plainLib_usual, by decide +kernel, by decide +kernel, by decide +kernel,
    by decide +kernel, by decide +kernel, fun hs hb => ?_⟩
  cases hc : compiles plainLib hs with
  | false => rfl
  | true => exact absurd hb ((C117_order_partial plainLib plainLib_usual hs).mp hc).1

/-- The translation units of the tests, as far as the headers of the library go: `test/test_array.cpp`,
`test_container`, `test_lazy`, `test_lru_cache`, `test_randomiser`, `test_stack_trace`,
`test_stopwatch`. -/
def testUnits : List (List Hdr) :=
  [[.array, .container, .test], [.container, .test], [.lazy, .test], [.string, .lruCache, .test],
    [.randomiser, .container, .test], [.stackTrace, .test], [.stopwatch, .test]]

example : testUnits.all (compiles plainLib) = true := by decide +kernel
example : compiles plainLib [.handle, .writable, .container, .handle] = true := by decide +kernel

/-! ## C116 -/

/-- A unit has the definitions of the headers it includes, directly or not, each of them once. -/
theorem C116_unit (hs : List Hdr) :
    (defs (unit hs)).Nodup ∧ ∀ e, e ∈ defs (unit hs) ↔ ∃ h ∈ hs, Defines h e := by
  rw [unit_eq]
  refine ⟨?_, fun e => ?_⟩
  · have hl : linesDefs (hs.map .inc) = [] := by
      induction hs with
      | nil => rfl
      | cons h hs ih => exact ih
    have := (once.2 4 (hs.map .inc) [] (top_rank hs)).2 (by rw [hl]; simp) (by rw [hl]; simp)
    exact this.2
  · rw [mem_defs]
    constructor
    · intro ht
      obtain ⟨g, hg, e⟩ := top_toks hs _ ht
      exact ⟨g, hg, toks_defines.mp e⟩
    · rintro ⟨g, hg, hd⟩
      exact (top_done hs).2 g hg _ (toks_defines.mpr hd)

theorem defines_owner {h : Hdr} {e : Ent} (hd : Defines h e) : e ≠ .stackTraceFn ∧ owner e ∈ under h := by
  obtain ⟨g, hg, hl⟩ := hd
  have : ∀ g e, Line.defines e ∈ text g → e ≠ .stackTraceFn ∧ owner e = g := by
    intro g e; cases g <;> cases e <;> decide
  obtain ⟨a, b⟩ := this g e hl
  exact ⟨a, b ▸ hg⟩

theorem under_alone : ∀ h, (Hdr.test ∈ under h → h = .test) ∧
    (Hdr.randomiser ∈ under h → h = .randomiser) := by
  intro h; cases h <;> decide

theorem defines_test {hs : List Hdr} {e : Ent} (ho : owner e = .test) (hd : Defines .test e) :
    e ∈ defs (unit hs) ↔ Hdr.test ∈ hs := by
  rw [(C116_unit hs).2]
  constructor
  · rintro ⟨h, hh, hd⟩
    have := (defines_owner hd).2
    rw [ho] at this
    exact (under_alone h).1 this ▸ hh
  · intro h; exact ⟨_, h, hd⟩

theorem defines_randomiser {hs : List Hdr} {e : Ent} (ho : owner e = .randomiser)
    (hd : Defines .randomiser e) : e ∈ defs (unit hs) ↔ Hdr.randomiser ∈ hs := by
  rw [(C116_unit hs).2]
  constructor
  · rintro ⟨h, hh, hd⟩
    have := (defines_owner hd).2
    rw [ho] at this
    exact (under_alone h).2 this ▸ hh
  · intro h; exact ⟨_, h, hd⟩

theorem linksDefs_iff : ∀ ds : List (Ent × Nat),
    linksDefs ds = true ↔ ds.Pairwise (fun d d' => compatible d d' = true) := by
  intro ds
  induction ds with
  | nil => simp [linksDefs]
  | cons d ds ih => simp [linksDefs, ih]

theorem allDefs_mem : ∀ (us : List (List Ent)) (n : Nat) (d : Ent × Nat), d ∈ allDefs n us →
    n ≤ d.2 ∧ ∃ u ∈ us, d.1 ∈ u := by
  intro us
  induction us with
  | nil => intro n d h; simp [allDefs] at h
  | cons u us ih =>
    intro n d h
    rcases List.mem_append.mp h with h | h
    · obtain ⟨e, he, rfl⟩ := List.mem_map.mp h
      exact ⟨Nat.le_refl _, u, List.mem_cons_self .., he⟩
    · obtain ⟨a, u', hu', b⟩ := ih _ d h
      exact ⟨by omega, u', List.mem_cons_of_mem _ hu', b⟩

theorem mem_allDefs : ∀ (us : List (List Ent)) (n : Nat) (u : List Ent) (e : Ent), u ∈ us → e ∈ u →
    ∃ m, n ≤ m ∧ (e, m) ∈ allDefs n us := by
  intro us
  induction us with
  | nil => intro n u e h; simp at h
  | cons u us ih =>
    intro n u' e h he
    rcases List.mem_cons.mp h with rfl | h
    · exact ⟨n, Nat.le_refl _, List.mem_append.mpr (.inl (List.mem_map.mpr ⟨e, he, rfl⟩))⟩
    · obtain ⟨m, hm, h⟩ := ih (n + 1) u' e h he
      exact ⟨m, by omega, List.mem_append.mpr (.inr h)⟩

/-- Definitions that cannot be in two units. -/
def clash (e : Ent) : Bool := e.linkage == .strong || e == .randomiserGet

theorem compatible_same_unit {e e' : Ent} (n : Nat) (h : e ≠ e') :
    compatible (e, n) (e', n) = true := by
  unfold compatible
  rw [if_neg]
  intro hi
  apply h
  unfold identity at hi
  split at hi <;> split at hi <;> simp at hi <;> exact hi

theorem compatible_other {e e' : Ent} {n m : Nat} (h : n < m) :
    compatible (e, n) (e', m) = true ↔ ¬ (e = e' ∧ clash e = true) := by
  by_cases he : e = e'
  · subst he
    have hne : n ≠ m := by omega
    cases e <;> simp [compatible, identity, Ent.linkage, Ent.names, clash, hne]
  · have : compatible (e, n) (e', m) = true := by
      unfold compatible
      rw [if_neg]
      intro hi
      apply he
      unfold identity at hi
      split at hi <;> split at hi <;> simp at hi <;> first | exact hi | exact hi.1
    simp [this, he]

theorem allDefs_pairwise : ∀ (us : List (List Ent)) (n : Nat), (∀ u ∈ us, u.Nodup) →
    ((allDefs n us).Pairwise (fun d d' => compatible d d' = true) ↔
      us.Pairwise (fun u u' => ∀ e, e ∈ u → e ∈ u' → clash e = false)) := by
  intro us
  induction us with
  | nil => intro n _; simp [allDefs]
  | cons u us ih =>
    intro n hnd
    have hu : (u.map (fun e => (e, n))).Pairwise (fun d d' => compatible d d' = true) := by
      rw [List.pairwise_map]
      exact (hnd u (List.mem_cons_self ..)).imp (fun h => compatible_same_unit n h)
    simp only [allDefs]
    rw [List.pairwise_append, ih (n + 1) (fun u hu => hnd u (List.mem_cons_of_mem _ hu)),
      List.pairwise_cons]
    constructor
    · rintro ⟨_, h2, h3⟩
      refine ⟨?_, h2⟩
      intro u' hu' e he he'
      obtain ⟨m, hm, hd⟩ := mem_allDefs us (n + 1) u' e hu' he'
      have := (compatible_other (e := e) (e' := e) (by omega : n < m)).mp
        (h3 (e, n) (List.mem_map.mpr ⟨e, he, rfl⟩) (e, m) hd)
      simpa using this
    · rintro ⟨h1, h2⟩
      refine ⟨hu, h2, ?_⟩
      intro d hd d' hd'
      obtain ⟨e, he, rfl⟩ := List.mem_map.mp hd
      obtain ⟨hm, u', hu', he'⟩ := allDefs_mem us (n + 1) d' hd'
      obtain ⟨e', m⟩ := d'
      refine (compatible_other (by simp at hm; omega)).mpr ?_
      rintro ⟨rfl, hc⟩
      rw [h1 u' hu' e he he'] at hc
      exact absurd hc (by simp)

theorem pairwise_atMostOne {α : Type} {p : α → Prop} (l : List α) :
    l.Pairwise (fun x y => ¬ (p x ∧ p y)) ↔ AtMostOne p l := by
  constructor
  · intro h a b c x y e
    rw [e] at h
    rw [List.append_assoc, List.pairwise_append] at h
    have := (List.pairwise_cons.mp h.2.1).1 y (by simp)
    exact this
  · intro h
    induction l with
    | nil => simp
    | cons x l ih =>
      rw [List.pairwise_cons]
      refine ⟨?_, ih ?_⟩
      · intro y hy
        obtain ⟨b, c, rfl⟩ := List.append_of_mem hy
        exact h [] b c x y rfl
      · intro a b c u v e
        exact h (x :: a) b c u v (by simp [e])

/-- A program links without conflicting definitions if and only if at most one of its units includes
`test.hpp` and at most one includes `randomiser.hpp`, whatever other headers they include. -/
theorem C116_links_partial (units : List (List Hdr)) :
    wellLinked units = true ↔
      AtMostOne (fun hs => Hdr.test ∈ hs) units ∧
      AtMostOne (fun hs => Hdr.randomiser ∈ hs) units := by
  unfold wellLinked
  rw [linksDefs_iff, allDefs_pairwise _ _ (by
      intro u hu
      rcases List.mem_cons.mp hu with rfl | hu
      · decide
      · obtain ⟨hs, _, rfl⟩ := List.mem_map.mp hu
        exact (C116_unit hs).1),
    List.pairwise_cons, List.pairwise_map, ← pairwise_atMostOne, ← pairwise_atMostOne,
    ← List.pairwise_and_iff]
  have hlib : ∀ u ∈ units.map (fun hs => defs (unit hs)), ∀ e, e ∈ libraryObject → e ∈ u →
      clash e = false := by
    intro u hu e he heu
    obtain ⟨hs, _, rfl⟩ := List.mem_map.mp hu
    obtain ⟨h, _, hd⟩ := ((C116_unit hs).2 e).mp heu
    simp [libraryObject] at he
    exact absurd he (defines_owner hd).1
  constructor
  · rintro ⟨_, h⟩
    refine h.imp ?_
    intro hs hs' hc
    refine ⟨?_, ?_⟩
    · rintro ⟨h1, h2⟩
      have := hc .testFailures ((defines_test rfl ⟨.test, by decide, by decide⟩).mpr h1)
        ((defines_test rfl ⟨.test, by decide, by decide⟩).mpr h2)
      exact absurd this (by decide)
    · rintro ⟨h1, h2⟩
      have := hc .randomiserGet
        ((defines_randomiser rfl ⟨.randomiser, by decide, by decide⟩).mpr h1)
        ((defines_randomiser rfl ⟨.randomiser, by decide, by decide⟩).mpr h2)
      exact absurd this (by decide)
  · intro h
    refine ⟨hlib, h.imp ?_⟩
    rintro hs hs' ⟨ht, hr⟩ e he he'
    have own : ∀ {us : List Hdr}, e ∈ defs (unit us) → ∃ h ∈ us, owner e ∈ under h ∧ e ≠ .stackTraceFn := by
      intro us hu
      obtain ⟨h, hh, hd⟩ := ((C116_unit us).2 e).mp hu
      exact ⟨h, hh, (defines_owner hd).2, (defines_owner hd).1⟩
    obtain ⟨h1, m1, o1, n1⟩ := own he
    obtain ⟨h2, m2, o2, _⟩ := own he'
    cases hcl : clash e with
    | false => rfl
    | true =>
      exfalso
      have : owner e = .test ∨ owner e = .randomiser := by
        cases e <;> first | exact absurd hcl (by decide) | exact absurd rfl n1 | decide
      rcases this with ho | ho
      · rw [ho] at o1 o2
        exact ht ⟨(under_alone h1).1 o1 ▸ m1, (under_alone h2).1 o2 ▸ m2⟩
      · rw [ho] at o1 o2
        exact hr ⟨(under_alone h1).2 o1 ▸ m1, (under_alone h2).2 o2 ▸ m2⟩

/-- Two units that include `test.hpp` define the same variables; two that include `randomiser.hpp`
give one member function two meanings. -/
theorem C116_refuted :
    wellLinked [[.test], [.test]] = false ∧ wellLinked [[.randomiser], [.randomiser]] = false ∧
    compiles plainLib [.test] = true ∧ compiles plainLib [.randomiser] = true := by
  refine ⟨by decide +kernel, by decide +kernel, by decide +kernel, by decide +kernel⟩

/-- Programs whose units include the other headers only are linked, as many as there are. -/
theorem C116_others_partial (units : List (List Hdr))
    (h : ∀ hs ∈ units, Hdr.test ∉ hs ∧ Hdr.randomiser ∉ hs) : wellLinked units = true := by
  rw [C116_links_partial]
  constructor
  · rintro a b c x y e ⟨hx, _⟩
    exact (h x (by rw [e]; simp)).1 hx
  · rintro a b c x y e ⟨hx, _⟩
    exact (h x (by rw [e]; simp)).2 hx

theorem engines_aux : ∀ (us : List (List Hdr)) (n : Nat),
    ((((allDefs n (us.map (fun hs => defs (unit hs)))).filter
      (fun d => d.1 == Ent.randomGenerator)).map (fun d => identity d.1 d.2)).length
        = (us.filter (fun hs => decide (Hdr.randomiser ∈ hs))).length) ∧
    ((((allDefs n (us.map (fun hs => defs (unit hs)))).filter
      (fun d => d.1 == Ent.randomGenerator)).map (fun d => identity d.1 d.2))).Nodup ∧
    ∀ x ∈ (((allDefs n (us.map (fun hs => defs (unit hs)))).filter
      (fun d => d.1 == Ent.randomGenerator)).map (fun d => identity d.1 d.2)),
      ∃ m, n ≤ m ∧ x = (Ent.randomGenerator, some m) := by
  intro us
  induction us with
  | nil => intro n; simp [allDefs]
  | cons hs us ih =>
    intro n
    obtain ⟨i1, i2, i3⟩ := ih (n + 1)
    have hu : ((defs (unit hs)).map (fun e => (e, n))).filter (fun d => d.1 == Ent.randomGenerator)
        = if Hdr.randomiser ∈ hs then [(Ent.randomGenerator, n)] else [] := by
      have hmem := defines_randomiser (hs := hs) (e := .randomGenerator) rfl
        ⟨.randomiser, by decide, by decide⟩
      have hnd := (C116_unit hs).1
      revert hmem hnd
      generalize defs (unit hs) = l
      intro hmem hnd
      rw [List.filter_map]
      have hc : l.filter ((fun d : Ent × Nat => d.1 == Ent.randomGenerator) ∘ fun e => (e, n))
          = l.filter (fun e => e == Ent.randomGenerator) := rfl
      rw [hc, List.filter_beq, hnd.count]
      split <;> rename_i h
      · rw [if_pos (hmem.mp h)]; rfl
      · rw [if_neg (fun h' => h (hmem.mpr h'))]; rfl
    simp only [List.map_cons, allDefs, List.filter_append, List.map_append]
    rw [hu]
    by_cases hr : Hdr.randomiser ∈ hs
    · simp only [if_pos hr, List.map_cons, List.map_nil, List.cons_append, List.nil_append,
        List.length_cons, List.filter_cons, List.nodup_cons]
      refine ⟨by rw [i1]; simp [hr], ⟨?_, i2⟩, ?_⟩
      · intro hx
        obtain ⟨m, hm, e⟩ := i3 _ hx
        simp [identity, Ent.linkage] at e
        omega
      · intro x hx
        rcases List.mem_cons.mp hx with rfl | hx
        · exact ⟨n, Nat.le_refl _, rfl⟩
        · obtain ⟨m, hm, e⟩ := i3 x hx
          exact ⟨m, by omega, e⟩
    · simp only [if_neg hr, List.map_nil, List.nil_append, List.filter_cons]
      refine ⟨by rw [i1]; simp [hr], i2, ?_⟩
      intro x hx
      obtain ⟨m, hm, e⟩ := i3 x hx
      exact ⟨m, by omega, e⟩

/-- There is one random engine for each unit that includes `randomiser.hpp`, all different: the
randomisers of a program share an engine only within a unit. -/
theorem C116_engines (units : List (List Hdr)) :
    (engines units).Nodup ∧
    (engines units).length = (units.filter (fun hs => decide (Hdr.randomiser ∈ hs))).length :=
  ⟨(engines_aux units 0).2.1, (engines_aux units 0).1⟩

example : wellLinked [[.test, .container, .randomiser], [.container, .handle], [.range, .string]]
    = true := by decide +kernel
example : (engines [[.randomiser], [.container], [.randomiser, .test]]).length = 2 := by
  decide +kernel

theorem allDefs_nodup : ∀ (us : List (List Ent)) (n : Nat), (allDefs n us).Nodup → ∀ u ∈ us, u.Nodup := by
  intro us
  induction us with
  | nil => intro n _ u hu; simp at hu
  | cons v vs ih =>
    intro n h u hu
    rw [allDefs, List.nodup_append] at h
    rcases List.mem_cons.mp hu with rfl | hu
    · refine (List.pairwise_map.mp h.1).imp ?_
      intro a b hab e
      exact hab (by rw [e])
    · exact ih _ h.2.1 u hu

/-- The rules of linking refuse a unit (of a user, with whatever definitions) that defines the same thing twice, and a
unit that defines `stack_trace` again. -/
theorem C116_oneDefinition (us : List (List Ent)) (h : linksDefs (allDefs 0 (libraryObject :: us)) = true) :
    ∀ u ∈ us, u.Nodup ∧ Ent.stackTraceFn ∉ u := by
  rw [linksDefs_iff] at h
  have hself : ∀ d, compatible d d = false := by
    intro d
    simp [compatible]
  intro u hu
  constructor
  · refine allDefs_nodup (libraryObject :: us) 0 (h.imp ?_) u (List.mem_cons_of_mem _ hu)
    intro a b hab e
    subst e
    rw [hself] at hab
    cases hab
  · intro hs
    obtain ⟨m, hm, hd⟩ := mem_allDefs us 1 u _ hu hs
    simp only [allDefs, libraryObject, List.map_cons, List.map_nil, List.singleton_append, List.pairwise_cons] at h
    have := h.1 _ hd
    simp [compatible, identity, Ent.linkage] at this

example : linksDefs (allDefs 0 (libraryObject :: [[.complement, .range1], [.complement]])) = true := by decide +kernel

end Helper.Link
