import Verif.Link.Spec

set_option linter.unusedSectionVars false

namespace Helper.Link

/-- Depth of includes below a header. -/
def rank : Hdr → Nat
  | .array => 1
  | .writable => 1
  | .variant => 1
  | .lruCache => 1
  | .test => 1
  | .stlio => 2
  | .variantInl => 2
  | .handle => 2
  | .container => 3
  | .binaryWord => 3
  | _ => 0

theorem rank_lt (h : Hdr) : rank h < 4 := by cases h <;> decide

/-- Lines as tokens. -/
def Line.tok : Line → Option Tok
  | .inc _ => none
  | .std s => some (.std s)
  | .needs n => some (.needs n)
  | .declares n => some (.declares n)
  | .defines e => some (.defines e)

def toks (h : Hdr) : List Tok := (under h).flatMap (fun g => (text g).filterMap Line.tok)

theorem under_inc (h : Hdr) : ∀ l ∈ text h, ∀ g, l = .inc g → rank g < rank h ∧ ∀ x ∈ under g, x ∈ under h := by
  cases h <;> simp [text, rank] <;> decide

theorem self_under (h : Hdr) : h ∈ under h := by cases h <;> decide

theorem rank_under (h : Hdr) : ∀ g ∈ under h, g = h ∨ rank g < rank h := by cases h <;> decide

/-! ## The preprocessor -/

theorem preLines_congr {inc inc' : List Hdr → Hdr → List Tok × List Hdr} :
    ∀ (ls : List Line) (seen : List Hdr),
      (∀ g, Line.inc g ∈ ls → ∀ s, inc s g = inc' s g) →
      preLines inc seen ls = preLines inc' seen ls := by
  intro ls
  induction ls with
  | nil => intro seen _; rfl
  | cons l ls ih =>
    intro seen hi
    have hi' : ∀ g, Line.inc g ∈ ls → ∀ s, inc s g = inc' s g :=
      fun g hg => hi g (List.mem_cons_of_mem _ hg)
    cases l with
    | inc h =>
      simp only [preLines]
      rw [hi h (List.mem_cons_self ..) seen, ih _ hi']
    | std s => simp only [preLines]; rw [ih _ hi']
    | needs s => simp only [preLines]; rw [ih _ hi']
    | declares s => simp only [preLines]; rw [ih _ hi']
    | defines s => simp only [preLines]; rw [ih _ hi']

theorem preInc_depth : ∀ (n m : Nat) (h : Hdr) (seen : List Hdr), rank h < n → rank h < m →
    preInc n seen h = preInc m seen h := by
  intro n
  induction n with
  | zero => intro m h seen hn; omega
  | succ n ih =>
    intro m h seen hn hm
    cases m with
    | zero => omega
    | succ m =>
      simp only [preInc]
      split
      · rfl
      · refine preLines_congr _ _ (fun g hg s => ?_)
        have := (under_inc h _ hg g rfl).1
        exact ih m g s (by omega) (by omega)

/-- What the preprocessor does with a header that is read. -/
theorem preInc_new {seen : List Hdr} {h : Hdr} (hn : h ∉ seen) :
    preInc depth seen h
      = preLines (preInc depth) (if guarded h then h :: seen else seen) (text h) := by
  have h1 : preInc depth seen h = preInc (depth + 1) seen h :=
    preInc_depth _ _ _ _ (by have := rank_lt h; unfold depth; omega)
      (by have := rank_lt h; unfold depth; omega)
  rw [h1]
  simp only [preInc]
  rw [if_neg hn]

theorem preInc_old {seen : List Hdr} {h : Hdr} (hn : h ∈ seen) :
    preInc depth seen h = ([], seen) := by
  show (if h ∈ seen then ([], seen) else _) = _
  rw [if_pos hn]

/-- Induction over what the preprocessor does: a relation between the headers seen before, the
tokens and the headers seen afterwards, for lines below a rank and for headers. -/
theorem pre_induct {Q : Nat → List Line → List Hdr → List Tok → List Hdr → Prop}
    {R : Hdr → List Hdr → List Tok → List Hdr → Prop}
    (nil : ∀ r seen, Q r [] seen [] seen)
    (tok : ∀ r l t ls seen ts seen', l.tok = some t → Q r ls seen ts seen' →
      Q r (l :: ls) seen (t :: ts) seen')
    (inc : ∀ r h ls seen ts seen' ts' seen'', rank h < r → preInc depth seen h = (ts, seen') → R h seen ts seen' →
      Q r ls seen' ts' seen'' → Q r (.inc h :: ls) seen (ts ++ ts') seen'')
    (old : ∀ h seen, h ∈ seen → R h seen [] seen)
    (new : ∀ h seen ts seen', h ∉ seen →
      Q (rank h) (text h) (if guarded h then h :: seen else seen) ts seen' → R h seen ts seen') :
    (∀ h seen, R h seen (preInc depth seen h).1 (preInc depth seen h).2) ∧
    (∀ r ls seen, (∀ g, Line.inc g ∈ ls → rank g < r) →
      Q r ls seen (preLines (preInc depth) seen ls).1 (preLines (preInc depth) seen ls).2) := by
  have lines : ∀ (r : Nat) (ls : List Line) (seen : List Hdr),
      (∀ g, Line.inc g ∈ ls → rank g < r) →
      (∀ h seen, rank h < r → R h seen (preInc depth seen h).1 (preInc depth seen h).2) →
      Q r ls seen (preLines (preInc depth) seen ls).1 (preLines (preInc depth) seen ls).2 := by
    intro r ls
    induction ls with
    | nil => intro seen _ _; exact nil r seen
    | cons l ls ih =>
      intro seen hr hR
      have hr' : ∀ g, Line.inc g ∈ ls → rank g < r := fun g hg => hr g (List.mem_cons_of_mem _ hg)
      cases l with
      | inc h =>
        exact inc r h ls seen _ _ _ _ (hr h (List.mem_cons_self ..)) rfl
          (hR h seen (hr h (List.mem_cons_self ..))) (ih _ hr' hR)
      | std s => exact tok r _ _ ls seen _ _ rfl (ih _ hr' hR)
      | needs s => exact tok r _ _ ls seen _ _ rfl (ih _ hr' hR)
      | declares s => exact tok r _ _ ls seen _ _ rfl (ih _ hr' hR)
      | defines s => exact tok r _ _ ls seen _ _ rfl (ih _ hr' hR)
  have hdrs : ∀ (n : Nat) (h : Hdr) (seen : List Hdr), rank h < n →
      R h seen (preInc depth seen h).1 (preInc depth seen h).2 := by
    intro n
    induction n with
    | zero => intro h seen hn; omega
    | succ n ih =>
      intro h seen hn
      by_cases hs : h ∈ seen
      · rw [preInc_old hs]; exact old h seen hs
      · rw [preInc_new hs]
        refine new h seen _ _ hs (lines (rank h) (text h) _
          (fun g hg => (under_inc h _ hg g rfl).1) (fun g seen hg => ih g seen (by omega)))
  exact ⟨fun h seen => hdrs (rank h + 1) h seen (by omega),
    fun r ls seen hr => lines r ls seen hr (fun h seen _ => hdrs (rank h + 1) h seen (by omega))⟩

/-! ## Which tokens and headers come out -/

theorem text_toks (h : Hdr) {l : Line} {t : Tok} (hl : l ∈ text h) (ht : l.tok = some t) :
    t ∈ toks h :=
  List.mem_flatMap.mpr ⟨h, self_under h, List.mem_filterMap.mpr ⟨l, hl, ht⟩⟩

theorem toks_inc {h g : Hdr} (hg : Line.inc g ∈ text h) {t : Tok} (ht : t ∈ toks g) :
    t ∈ toks h := by
  obtain ⟨x, hx, hx'⟩ := List.mem_flatMap.mp ht
  exact List.mem_flatMap.mpr ⟨x, (under_inc h _ hg g rfl).2 x hx, hx'⟩

theorem toks_mem {h : Hdr} {t : Tok} (ht : t ∈ toks h) :
    ∃ g ∈ under h, ∃ l ∈ text g, l.tok = some t := by
  obtain ⟨x, hx, hx'⟩ := List.mem_flatMap.mp ht
  obtain ⟨l, hl, hl'⟩ := List.mem_filterMap.mp hx'
  exact ⟨x, hx, l, hl, hl'⟩

def BoundH (h : Hdr) (seen : List Hdr) (ts : List Tok) (seen' : List Hdr) : Prop :=
  (∀ t ∈ ts, t ∈ toks h) ∧ (∀ g ∈ seen', g ∈ seen ∨ g ∈ under h) ∧ (∀ g ∈ seen, g ∈ seen') ∧
  (guarded h = true → h ∈ seen') ∧ (h ∉ seen → ∀ l ∈ text h, ∀ t, l.tok = some t → t ∈ ts)

def BoundL (_ : Nat) (ls : List Line) (seen : List Hdr) (ts : List Tok) (seen' : List Hdr) : Prop :=
  (∀ t ∈ ts, (∃ l ∈ ls, l.tok = some t) ∨ ∃ g, Line.inc g ∈ ls ∧ t ∈ toks g) ∧
  (∀ g ∈ seen', g ∈ seen ∨ ∃ g', Line.inc g' ∈ ls ∧ g ∈ under g') ∧ (∀ g ∈ seen, g ∈ seen') ∧
  (∀ l ∈ ls, ∀ t, l.tok = some t → t ∈ ts) ∧
  (∀ g, Line.inc g ∈ ls → guarded g = true → g ∈ seen')

theorem bound : (∀ h seen, BoundH h seen (preInc depth seen h).1 (preInc depth seen h).2) ∧
    (∀ r ls seen, (∀ g, Line.inc g ∈ ls → rank g < r) →
      BoundL r ls seen (preLines (preInc depth) seen ls).1 (preLines (preInc depth) seen ls).2) := by
  refine pre_induct ?_ ?_ ?_ ?_ ?_
  · intro r seen
    refine ⟨by simp, fun g hg => .inl hg, fun g hg => hg, by simp, by simp⟩
  · intro r l t ls seen ts seen' ht ⟨h1, h2, h3, h4, h5⟩
    have hne : ∀ g, l ≠ .inc g := by intro g hg; subst hg; simp [Line.tok] at ht
    refine ⟨?_, ?_, h3, ?_, ?_⟩
    · intro x hx
      rcases List.mem_cons.mp hx with rfl | hx
      · exact .inl ⟨l, List.mem_cons_self .., ht⟩
      · rcases h1 x hx with ⟨l', hl', e⟩ | ⟨g, hg, e⟩
        · exact .inl ⟨l', List.mem_cons_of_mem _ hl', e⟩
        · exact .inr ⟨g, List.mem_cons_of_mem _ hg, e⟩
    · intro g hg
      rcases h2 g hg with h | ⟨g', hg', e⟩
      · exact .inl h
      · exact .inr ⟨g', List.mem_cons_of_mem _ hg', e⟩
    · intro l' hl' t' ht'
      rcases List.mem_cons.mp hl' with rfl | hl'
      · rw [ht] at ht'; cases ht'; exact List.mem_cons_self ..
      · exact List.mem_cons_of_mem _ (h4 l' hl' t' ht')
    · intro g hg hgd
      rcases List.mem_cons.mp hg with e | hg
      · exact absurd e.symm (hne g)
      · exact h5 g hg hgd
  · intro r h ls seen ts seen' ts' seen'' _ _ ⟨a1, a2, a3, a4, _⟩ ⟨h1, h2, h3, h4, h5⟩
    refine ⟨?_, ?_, fun g hg => h3 g (a3 g hg), ?_, ?_⟩
    · intro x hx
      rcases List.mem_append.mp hx with hx | hx
      · exact .inr ⟨h, List.mem_cons_self .., a1 x hx⟩
      · rcases h1 x hx with ⟨l', hl', e⟩ | ⟨g, hg, e⟩
        · exact .inl ⟨l', List.mem_cons_of_mem _ hl', e⟩
        · exact .inr ⟨g, List.mem_cons_of_mem _ hg, e⟩
    · intro g hg
      rcases h2 g hg with h | ⟨g', hg', e⟩
      · rcases a2 g h with h | h
        · exact .inl h
        · exact .inr ⟨_, List.mem_cons_self .., h⟩
      · exact .inr ⟨g', List.mem_cons_of_mem _ hg', e⟩
    · intro l' hl' t' ht'
      rcases List.mem_cons.mp hl' with rfl | hl'
      · simp [Line.tok] at ht'
      · exact List.mem_append.mpr (.inr (h4 l' hl' t' ht'))
    · intro g hg hgd
      rcases List.mem_cons.mp hg with e | hg
      · cases e; exact h3 _ (a4 hgd)
      · exact h5 g hg hgd
  · intro h seen hs
    exact ⟨by simp, fun g hg => .inl hg, fun g hg => hg, fun _ => hs, fun hn => absurd hs hn⟩
  · intro h seen ts seen' hn ⟨h1, h2, h3, h4, _⟩
    have hsub : ∀ g ∈ seen, g ∈ (if guarded h then h :: seen else seen) := by
      intro g hg; split
      · exact List.mem_cons_of_mem _ hg
      · exact hg
    refine ⟨?_, ?_, fun g hg => h3 g (hsub g hg), ?_, fun _ => h4⟩
    · intro t ht
      rcases h1 t ht with ⟨l, hl, e⟩ | ⟨g, hg, e⟩
      · exact text_toks h hl e
      · exact toks_inc hg e
    · intro g hg
      rcases h2 g hg with h' | ⟨g', hg', e⟩
      · split at h'
        · rcases List.mem_cons.mp h' with rfl | h'
          · exact .inr (self_under _)
          · exact .inl h'
        · exact .inl h'
      · exact .inr ((under_inc h _ hg' g' rfl).2 g e)
    · intro hg
      refine h3 h ?_
      rw [if_pos hg]; exact List.mem_cons_self ..

/-! ## All tokens below a header have been read when it has been included -/

def Done (k : Nat) (seen : List Hdr) (before : List Tok) : Prop :=
  ∀ g ∈ seen, rank g < k → ∀ t ∈ toks g, t ∈ before

theorem Done.mono {k : Nat} {seen : List Hdr} {b b' : List Tok} (h : Done k seen b)
    (hb : ∀ t ∈ b, t ∈ b') : Done k seen b' := fun g hg hk t ht => hb t (h g hg hk t ht)

def CompH (h : Hdr) (seen : List Hdr) (ts : List Tok) (seen' : List Hdr) : Prop :=
  (∀ g ∈ seen', g ∈ seen ∨ g = h ∨ rank g < rank h) ∧
  ∀ k before, rank h < k → Done k seen before →
    Done k seen' (before ++ ts) ∧ ∀ t ∈ toks h, t ∈ before ++ ts

def CompL (r : Nat) (ls : List Line) (seen : List Hdr) (ts : List Tok) (seen' : List Hdr) : Prop :=
  (∀ g ∈ seen', g ∈ seen ∨ rank g < r) ∧
  ∀ before, Done r seen before → Done r seen' (before ++ ts) ∧
    (∀ l ∈ ls, ∀ t, l.tok = some t → t ∈ before ++ ts) ∧
    (∀ g, Line.inc g ∈ ls → ∀ t ∈ toks g, t ∈ before ++ ts)

/-- Every header below `h` other than `h` itself is below one that `h` includes. -/
theorem under_split (h : Hdr) : ∀ g ∈ under h, g = h ∨ ∃ g' ∈ under h, Line.inc g' ∈ text h ∧ g ∈ under g' := by
  cases h <;> decide

theorem comp : (∀ h seen, CompH h seen (preInc depth seen h).1 (preInc depth seen h).2) ∧
    (∀ r ls seen, (∀ g, Line.inc g ∈ ls → rank g < r) →
      CompL r ls seen (preLines (preInc depth) seen ls).1 (preLines (preInc depth) seen ls).2) := by
  refine pre_induct ?_ ?_ ?_ ?_ ?_
  · intro r seen
    refine ⟨fun g hg => .inl hg, fun b hb => ⟨by simpa using hb, by simp, by simp⟩⟩
  · intro r l t ls seen ts seen' ht ⟨h1, h2⟩
    refine ⟨h1, fun b hb => ?_⟩
    obtain ⟨a1, a2, a3⟩ := h2 b hb
    have hsub : ∀ t' ∈ b ++ ts, t' ∈ b ++ t :: ts := by
      intro t' ht'; simp at ht' ⊢; rcases ht' with h | h <;> simp [h]
    refine ⟨a1.mono hsub, ?_, ?_⟩
    · intro l' hl' t' ht'
      rcases List.mem_cons.mp hl' with rfl | hl'
      · rw [ht] at ht'; cases ht'; simp
      · exact hsub _ (a2 l' hl' t' ht')
    · intro g hg t' ht'
      rcases List.mem_cons.mp hg with e | hg
      · subst e; simp [Line.tok] at ht
      · exact hsub _ (a3 g hg t' ht')
  · intro r h ls seen ts seen' ts' seen'' hr _ ⟨c1, c2⟩ ⟨h1, h2⟩
    refine ⟨?_, fun b hb => ?_⟩
    · intro g hg
      rcases h1 g hg with h' | h'
      · rcases c1 g h' with h' | rfl | h'
        · exact .inl h'
        · exact .inr hr
        · exact .inr (by omega)
      · exact .inr h'
    · obtain ⟨d1, d2⟩ := c2 r b hr hb
      obtain ⟨a1, a2, a3⟩ := h2 (b ++ ts) d1
      rw [List.append_assoc] at a1 a2 a3
      refine ⟨a1, ?_, ?_⟩
      · intro l' hl' t' ht'
        rcases List.mem_cons.mp hl' with rfl | hl'
        · simp [Line.tok] at ht'
        · exact a2 l' hl' t' ht'
      · intro g hg t' ht'
        rcases List.mem_cons.mp hg with e | hg
        · cases e
          rw [← List.append_assoc]
          exact List.mem_append.mpr (.inl (d2 t' ht'))
        · exact a3 g hg t' ht'
  · intro h seen hs
    refine ⟨fun g hg => .inl hg, fun k b hk hb => ⟨by simpa using hb, ?_⟩⟩
    intro t ht
    exact List.mem_append.mpr (.inl (hb h hs hk t ht))
  · intro h seen ts seen' hn ⟨h1, h2⟩
    refine ⟨?_, fun k b hk hb => ?_⟩
    · intro g hg
      rcases h1 g hg with h' | h'
      · split at h'
        · rcases List.mem_cons.mp h' with rfl | h'
          · exact .inr (.inl rfl)
          · exact .inl h'
        · exact .inl h'
      · exact .inr (.inr h')
    · have hd : Done (rank h) (if guarded h then h :: seen else seen) b := by
        intro g hg hr t ht
        split at hg
        · rcases List.mem_cons.mp hg with rfl | hg
          · omega
          · exact hb g hg (by omega) t ht
        · exact hb g hg (by omega) t ht
      obtain ⟨a1, a2, a3⟩ := h2 b hd
      have hall : ∀ t ∈ toks h, t ∈ b ++ ts := by
        intro t ht
        obtain ⟨g, hg, l, hl, e⟩ := toks_mem ht
        rcases under_split h g hg with rfl | ⟨g', _, hg', hgg⟩
        · exact a2 l hl t e
        · exact a3 g' hg' t (List.mem_flatMap.mpr ⟨g, hgg, List.mem_filterMap.mpr ⟨l, hl, e⟩⟩)
      refine ⟨?_, hall⟩
      intro g hg hr t ht
      rcases h1 g hg with h' | h'
      · split at h'
        · rcases List.mem_cons.mp h' with rfl | h'
          · exact hall t ht
          · exact List.mem_append.mpr (.inl (hb g h' hr t ht))
        · exact List.mem_append.mpr (.inl (hb g h' hr t ht))
      · exact a1 g hg h' t ht

/-! ## Acceptance -/

def known (lib : Lib) (b : List Tok) (n : Nm) : Prop := b.any (Tok.gives lib n) = true

theorem known_mono {lib : Lib} {b b' : List Tok} {n : Nm} (hb : ∀ t ∈ b, t ∈ b')
    (h : known lib b n) : known lib b' n := by
  obtain ⟨t, ht, e⟩ := List.any_eq_true.mp h
  exact List.any_eq_true.mpr ⟨t, hb t ht, e⟩

theorem accepts_cons (lib : Lib) (b : List Tok) (t : Tok) (ts : List Tok) :
    accepts lib b (t :: ts) = true ↔
      (∀ n, t = .needs n → known lib b n) ∧ accepts lib (t :: b) ts = true := by
  cases t <;> simp [accepts, known]

theorem accepts_mono {lib : Lib} : ∀ (ts : List Tok) {b b' : List Tok}, (∀ t ∈ b, t ∈ b') →
    accepts lib b ts = true → accepts lib b' ts = true := by
  intro ts
  induction ts with
  | nil => intro b b' _ _; rfl
  | cons t ts ih =>
    intro b b' hb h
    rw [accepts_cons] at h ⊢
    refine ⟨fun n hn => known_mono hb (h.1 n hn), ih ?_ h.2⟩
    intro x hx
    rcases List.mem_cons.mp hx with rfl | hx
    · exact List.mem_cons_self ..
    · exact List.mem_cons_of_mem _ (hb x hx)

theorem accepts_append {lib : Lib} : ∀ (ts ts' b : List Tok),
    accepts lib b (ts ++ ts') = true ↔
      accepts lib b ts = true ∧ accepts lib (b ++ ts) ts' = true := by
  intro ts
  induction ts with
  | nil => intro ts' b; simp [accepts]
  | cons t ts ih =>
    intro ts' b
    rw [List.cons_append, accepts_cons, accepts_cons, ih]
    have : accepts lib (t :: b ++ ts) ts' = true ↔ accepts lib (b ++ t :: ts) ts' = true := by
      constructor <;> (refine accepts_mono _ ?_; intro x hx; simp at hx ⊢; grind)
    rw [this]
    exact and_assoc.symm

/-- Names a header takes for granted without including a standard header that declares them. -/
def extra : Hdr → List Nm
  | .writable => [.ostream]
  | .variantInl => [.globalAbort]
  | _ => []

/-- What a header with extra names includes before it needs them. -/
def extraToks : Hdr → List Tok
  | .writable => toks .metaprogramming
  | .variantInl => toks .variant
  | _ => []

theorem extraToks_std (h : Hdr) (he : extra h ≠ []) : ∀ t ∈ toks h, ∀ s, t = .std s →
    t ∈ extraToks h := by
  cases h <;> first | exact absurd rfl he | (intro t ht s hs; subst hs; revert ht; cases s <;> decide)

def usualLib : Lib := fun s n => decide (n ∈ usual s)

/-- Lines need only names that are given earlier, assuming the usual declarations. -/
def okLines (E : List Nm) (F K : List Tok) : List Line → Bool
  | [] => true
  | .inc g :: ls => (extra g).all (fun n => K.any (Tok.gives usualLib n)) && g != .binaryWord
      && okLines E F (toks g ++ K) ls
  | .needs n :: ls => ((decide (n ∈ E) && F.all (fun t => decide (t ∈ K))) || K.any (Tok.gives usualLib n))
      && okLines E F (.needs n :: K) ls
  | .std s :: ls => okLines E F (.std s :: K) ls
  | .declares s :: ls => okLines E F (.declares s :: K) ls
  | .defines s :: ls => okLines E F (.defines s :: K) ls

theorem okHeader (h : Hdr) (hb : h ≠ .binaryWord) : okLines (extra h) (extraToks h) [] (text h) = true := by
  cases h <;> first | exact absurd rfl hb | decide +kernel

theorem known_usual {lib : Lib} (hl : Usual lib) {K : List Tok} {n : Nm}
    (h : K.any (Tok.gives usualLib n) = true) : known lib K n := by
  obtain ⟨t, ht, e⟩ := List.any_eq_true.mp h
  refine List.any_eq_true.mpr ⟨t, ht, ?_⟩
  cases t with
  | std s => exact hl.least s n (by simpa [Tok.gives, usualLib] using e)
  | declares m => exact e
  | needs m => exact e
  | defines m => exact e

def AccH (lib : Lib) (h : Hdr) (seen : List Hdr) (ts : List Tok) (_ : List Hdr) : Prop :=
  ∀ k before, rank h < k → Done k seen before → h ≠ .binaryWord →
    (h ∉ seen → ∀ n ∈ extra h, known lib (before ++ extraToks h) n) → accepts lib before ts = true

def AccL (lib : Lib) (r : Nat) (ls : List Line) (seen : List Hdr) (ts : List Tok)
    (_ : List Hdr) : Prop :=
  ∀ E F K before, (∀ n ∈ E, known lib (before ++ F) n) → (∀ t ∈ K, t ∈ before) →
    Done r seen before → okLines E F K ls = true → accepts lib before ts = true

theorem acc {lib : Lib} (hl : Usual lib) :
    ∀ h seen, AccH lib h seen (preInc depth seen h).1 (preInc depth seen h).2 := by
  have main := pre_induct
    (Q := fun r ls seen ts seen' => AccL lib r ls seen ts seen')
    (R := fun h seen ts seen' => AccH lib h seen ts seen')
    (by intro r seen E F K b _ _ _ _; rfl)
    (by
      intro r l t ls seen ts seen' ht h E F K b hE hK hd hok
      rw [accepts_cons]
      have hE' : ∀ n ∈ E, known lib (t :: b ++ F) n :=
        fun n hn => known_mono (fun x hx => List.mem_cons_of_mem _ hx) (hE n hn)
      have hK' : ∀ x ∈ t :: K, x ∈ t :: b := by
        intro x hx
        rcases List.mem_cons.mp hx with rfl | hx
        · exact List.mem_cons_self ..
        · exact List.mem_cons_of_mem _ (hK x hx)
      have hd' : Done r seen (t :: b) := hd.mono (fun x hx => List.mem_cons_of_mem _ hx)
      cases l with
      | inc g => simp [Line.tok] at ht
      | needs n =>
        cases ht
        simp only [okLines, Bool.and_eq_true, Bool.or_eq_true, decide_eq_true_eq,
          List.all_eq_true] at hok
        refine ⟨?_, h E F _ _ hE' hK' hd' hok.2⟩
        intro m hm
        cases hm
        rcases hok.1 with h' | h'
        · refine known_mono ?_ (hE n h'.1)
          intro x hx
          rcases List.mem_append.mp hx with hx | hx
          · exact hx
          · exact hK x (h'.2 x hx)
        · exact known_mono hK (known_usual hl h')
      | std s =>
        cases ht
        exact ⟨fun m hm => by simp at hm, h E F _ _ hE' hK' hd' hok⟩
      | declares s =>
        cases ht
        exact ⟨fun m hm => by simp at hm, h E F _ _ hE' hK' hd' hok⟩
      | defines s =>
        cases ht
        exact ⟨fun m hm => by simp at hm, h E F _ _ hE' hK' hd' hok⟩)
    (by
      intro r h ls seen ts seen' ts' seen'' hr heq hR hQ E F K b hE hK hd hok
      simp only [okLines, Bool.and_eq_true, List.all_eq_true, bne_iff_ne, ne_eq] at hok
      obtain ⟨⟨hx, hb⟩, hok⟩ := hok
      have hc := comp.1 h seen
      rw [heq] at hc
      obtain ⟨d1, d2⟩ := hc.2 r b hr hd
      rw [accepts_append]
      refine ⟨hR r b hr hd hb (fun _ n hn => known_mono
        (fun x hx => List.mem_append.mpr (.inl (hK x hx))) (known_usual hl (hx n hn))), ?_⟩
      refine hQ E F _ _ (fun n hn => known_mono (fun x hx => by simp at hx ⊢; grind) (hE n hn))
        ?_ d1 hok
      intro x hx
      rcases List.mem_append.mp hx with hx | hx
      · exact d2 x hx
      · exact List.mem_append.mpr (.inl (hK x hx)))
    (by
      intro h seen hs k b _ _ _ _
      rfl)
    (by
      intro h seen ts seen' hn hq k b hk hd hb hx
      refine hq (extra h) (extraToks h) [] b (hx hn) (by simp) ?_ (okHeader h hb)
      intro g hg hr t ht
      split at hg
      · rcases List.mem_cons.mp hg with rfl | hg
        · omega
        · exact hd g hg (by omega) t ht
      · exact hd g hg (by omega) t ht)
  exact main.1

/-! ## Definitions -/

theorem defs_append : ∀ (ts ts' : List Tok), defs (ts ++ ts') = defs ts ++ defs ts' := by
  intro ts
  induction ts with
  | nil => intro ts'; rfl
  | cons t ts ih => intro ts'; cases t <;> simp [defs, ih]

theorem mem_defs : ∀ (ts : List Tok) (e : Ent), e ∈ defs ts ↔ Tok.defines e ∈ ts := by
  intro ts
  induction ts with
  | nil => intro e; simp [defs]
  | cons t ts ih => intro e; cases t <;> simp [defs, ih]

/-- The header (of the unit) that defines something. -/
def owner : Ent → Hdr
  | .testFailures | .testSkipped | .testingClass | .testCaseCounter => .test
  | .randomGenerator | .randomiserGet => .randomiser
  | .complement => .array
  | .wordMembers | .makeBinaryWord | .readWord | .writeWord => .binaryWord
  | .writeError => .handle
  | .cStr | .classNameString => .string
  | .range1 | .range2 | .rangeBegin | .rangeEnd => .range
  | .writeWritable => .writable
  | .stackTraceFn => .stackTrace

def linesDefs (ls : List Line) : List Ent := defs (ls.filterMap Line.tok)

theorem text_defs (h : Hdr) : (linesDefs (text h)).Nodup ∧
    ∀ e ∈ linesDefs (text h), owner e = h ∧ guarded h = true := by
  cases h <;> decide

def OnceH (_ : Hdr) (seen : List Hdr) (ts : List Tok) (seen' : List Hdr) : Prop :=
  (∀ e ∈ defs ts, owner e ∉ seen ∧ owner e ∈ seen') ∧ (defs ts).Nodup ∧ ∀ g ∈ seen, g ∈ seen'

def OnceL (_ : Nat) (ls : List Line) (seen : List Hdr) (ts : List Tok) (seen' : List Hdr) : Prop :=
  (∀ g ∈ seen, g ∈ seen') ∧
  ((∀ e ∈ linesDefs ls, owner e ∈ seen) → (linesDefs ls).Nodup →
    (∀ e ∈ defs ts, e ∈ linesDefs ls ∨ (owner e ∉ seen ∧ owner e ∈ seen')) ∧ (defs ts).Nodup)

theorem once : (∀ h seen, OnceH h seen (preInc depth seen h).1 (preInc depth seen h).2) ∧
    (∀ r ls seen, (∀ g, Line.inc g ∈ ls → rank g < r) →
      OnceL r ls seen (preLines (preInc depth) seen ls).1 (preLines (preInc depth) seen ls).2) := by
  refine pre_induct ?_ ?_ ?_ ?_ ?_
  · intro r seen
    exact ⟨fun g hg => hg, fun _ _ => ⟨by simp [defs], by simp [defs]⟩⟩
  · intro r l t ls seen ts seen' ht ⟨h0, h1⟩
    refine ⟨h0, fun ho hn => ?_⟩
    have hl : linesDefs (l :: ls) = defs (t :: ls.filterMap Line.tok) := by
      simp [linesDefs, ht]
    rw [hl] at ho hn ⊢
    cases t with
    | defines e =>
      simp only [defs, List.nodup_cons, List.mem_cons] at ho hn ⊢
      obtain ⟨a, b⟩ := h1 (fun e he => ho e (.inr he)) hn.2
      refine ⟨?_, ?_, b⟩
      · rintro x (rfl | hx)
        · exact .inl (.inl rfl)
        · rcases a x hx with h | h
          · exact .inl (.inr h)
          · exact .inr h
      · intro he
        rcases a e he with h | h
        · exact hn.1 h
        · exact h.1 (ho e (.inl rfl))
    | std s => exact h1 ho hn
    | needs s => exact h1 ho hn
    | declares s => exact h1 ho hn
  · intro r h ls seen ts seen' ts' seen'' _ _ ⟨a1, a2, a3⟩ ⟨h0, h1⟩
    refine ⟨fun g hg => h0 g (a3 g hg), fun ho hn => ?_⟩
    have hl : linesDefs (.inc h :: ls) = linesDefs ls := rfl
    rw [hl] at ho hn ⊢
    obtain ⟨b1, b2⟩ := h1 (fun e he => a3 _ (ho e he)) hn
    rw [defs_append]
    refine ⟨?_, ?_⟩
    · intro e he
      rcases List.mem_append.mp he with he | he
      · exact .inr ⟨(a1 e he).1, h0 _ (a1 e he).2⟩
      · rcases b1 e he with h | h
        · exact .inl h
        · exact .inr ⟨fun hs => h.1 (a3 _ hs), h.2⟩
    · rw [List.nodup_append]
      refine ⟨a2, b2, ?_⟩
      intro e he e' he' hee
      subst hee
      rcases b1 e he' with h | h
      · exact (a1 e he).1 (ho e h)
      · exact h.1 (a1 e he).2
  · intro h seen hs
    exact ⟨by simp [defs], by simp [defs], fun g hg => hg⟩
  · intro h seen ts seen' hn ⟨h0, h1⟩
    have hsub : ∀ g ∈ seen, g ∈ (if guarded h then h :: seen else seen) := by
      intro g hg; split
      · exact List.mem_cons_of_mem _ hg
      · exact hg
    obtain ⟨t1, t2⟩ := text_defs h
    have hin : ∀ e ∈ linesDefs (text h), owner e ∈ (if guarded h then h :: seen else seen) := by
      intro e he
      rw [(t2 e he).1, if_pos (t2 e he).2]
      exact List.mem_cons_self ..
    obtain ⟨b1, b2⟩ := h1 hin t1
    refine ⟨?_, b2, fun g hg => h0 g (hsub g hg)⟩
    intro e he
    rcases b1 e he with h' | h'
    · refine ⟨?_, h0 _ (hin e h')⟩
      rw [(t2 e h').1]; exact hn
    · exact ⟨fun hs => h'.1 (hsub _ hs), h'.2⟩

end Helper.Link
