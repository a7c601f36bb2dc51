import Verif.Seq.SinkModel
import Verif.Stream.Lemmas
/-!
# Property C138: writing to streams that stop taking characters, and elements that throw
-/
set_option linter.unusedSectionVars false
namespace Helper.Seq.Sink

variable {T : Type u} {K : Type v}

/-! ## The lists of operations are the writers -/

theorem runO_append (os : OStream) (l m : List Op) : runO os (l ++ m) = runO (runO os l) m := by simp [runO]
theorem runO_nil (os : OStream) : runO os [] = os := rfl
theorem runO_put (os : OStream) (t : List Char) (l : List Op) : runO os (.put t :: l) = runO (os.put t) l := rfl
theorem runO_one (os : OStream) (o : Op) : runO os [o] = runO1 os o := rfl

theorem items_same (f : T → List Op) (c : Char) : ∀ (os : OStream) (xs : List T),
    writeItems (fun os x => runO os (f x)) c os xs = runO os (itemsOps f c xs)
  | os, [] => rfl
  | os, [x] => by simp [writeItems, itemsOps]
  | os, x :: y :: t => by
    rw [writeItems, itemsOps, runO_append, runO_put]
    exact items_same f c _ (y :: t)

theorem loop_same (f : T → List Op) (a b : List Char) : ∀ (first : Bool) (os : OStream) (xs : List T),
    printLoop (fun os x => runO os (f x)) a b first os xs = (first && xs.isEmpty, runO os (loopOps f a b first xs))
  | first, os, [] => by simp [printLoop, loopOps, runO_nil]
  | first, os, x :: t => by
    rw [printLoop, loop_same f a b]
    simp [loopOps, runO_put, runO_append]

theorem bits_same (w : BinWord.Word) : ∀ os : OStream, BinWord.writeBits os w = runO os (w.map .bool) := by
  induction w with
  | nil => intro os; rfl
  | cons b w ih => intro os; exact ih _

/-- **C138**: the lists of operations are the writers of the library: run on a stream that takes everything they are the functions of `Seq/Model.lean`. -/
theorem C138_writers (g : K → List Op) (f : T → List Op) (os : OStream) (xs : List T) (ps : List (K × T)) (q : K × T) (w : BinWord.Word)
    (o c s d : Char) :
    writeSequence (fun os x => runO os (f x)) os xs o c s = runO os (sequenceOps f xs o c s) ∧
    writeMapSequence (fun os k => runO os (g k)) (fun os x => runO os (f x)) os ps o c s d = runO os (mapSequenceOps g f ps o c s d) ∧
    printVector (fun os x => runO os (f x)) os xs = runO os (vectorOps f xs) ∧
    printSet (fun os x => runO os (f x)) os xs = runO os (setOps f xs) ∧
    printMap (fun os k => runO os (g k)) (fun os x => runO os (f x)) os ps = runO os (mapOps g f ps) ∧
    printPair (fun os k => runO os (g k)) (fun os x => runO os (f x)) os q = runO os (pairOps g f q) ∧
    BinWord.writeWord os w = runO os (wordOps w) := by
  refine ⟨?_, ?_, ?_, ?_, ?_, ?_, ?_⟩
  · rw [writeSequence, items_same, sequenceOps, runO_append, runO_put]; rfl
  · have hm : ∀ (os : OStream) (ps : List (K × T)), writeMapItems (fun os k => runO os (g k)) (fun os x => runO os (f x)) s d os ps =
        writeItems (fun os x => runO os (g x.1 ++ .put [d] :: f x.2)) s os ps := by
      intro os ps
      induction ps generalizing os with
      | nil => rfl
      | cons x t ih =>
        cases t with
        | nil => simp [writeMapItems, writeItems, runO_append, runO_put, OStream.putChar]
        | cons y t =>
          rw [writeMapItems, writeItems, ih]
          simp [runO_append, runO_put, OStream.putChar]
    rw [writeMapSequence, hm, items_same, mapSequenceOps, sequenceOps, runO_append, runO_put]; rfl
  · rw [printVector, loop_same, vectorOps, runO_append, runO_append, runO_one]
    cases xs <;> simp [runO_nil, runO_put, runO1]
  · rw [printSet, loop_same, setOps, runO_append, runO_append, runO_one]
    cases xs <;> simp [runO_nil, runO_put, runO1]
  · have hm : (fun (os : OStream) (x : K × T) => runO ((runO os (g x.1)).put [':']) (f x.2)) =
        fun os x => runO os (g x.1 ++ .put [':'] :: f x.2) := by
      funext os x; rw [runO_append, runO_put]
    rw [printMap, hm, loop_same, mapOps, runO_append, runO_append, runO_one]
    cases ps <;> simp [runO_nil, runO_put, runO1]
  · simp [printPair, pairOps, runO_append, runO_put, runO_nil, OStream.putChar]
  · rw [BinWord.writeWord, wordOps]
    cases w with
    | nil => rfl
    | cons b w => simp only [List.isEmpty_cons, Bool.false_eq_true, if_false]; rw [bits_same, runO_append]; rfl

/-! ## The run -/

/-- Specification: the text that the operations write to a stream that takes everything and has the same flags. -/
def full (s : Stream) (l : List Op) : List Char := (runO ⟨[], s.boolalpha, s.width, s.fill, false⟩ l).out

/-- Specification: the operations of elements that do not throw. -/
def Quiet (l : List Op) : Prop := ∀ o ∈ l, o ≠ .raise

/-- After some operations, beginning at `s0`; `o` is the stream that takes everything. -/
structure Rel (s0 s : Stream) (o : OStream) : Prop where
  live : o.failed = false
  out : s.out = s0.out ++ o.out.take s0.room
  goodLen : s.good = true → o.out.length ≤ s0.room
  goodRoom : s.good = true → s.room = s0.room - o.out.length
  width : s.good = true → s.width = o.width
  badLen : s.good = false → s0.room < o.out.length
  badRoom : s.good = false → s.room = 0 ∧ s.bad = true
  fill : s.fill = o.fill
  alpha : s.boolalpha = o.boolalpha
  exBad : s.exBad = s0.exBad
  exFail : s.exFail = s0.exFail
  masked : s0.exBad = true → s.good = true
  failLess : s0.exFail = true → s.fail = false

theorem rel_start {s0 : Stream} (h : s0.good = true) : Rel s0 s0 ⟨[], s0.boolalpha, s0.width, s0.fill, false⟩ where
  live := rfl
  out := by simp
  goodLen := fun _ => by simp
  goodRoom := fun _ => by simp
  width := fun _ => rfl
  badLen := fun h' => by rw [h] at h'; cases h'
  badRoom := fun h' => by rw [h] at h'; cases h'
  fill := rfl
  alpha := rfl
  exBad := rfl
  exFail := rfl
  masked := fun _ => h
  failLess := fun _ => by simp [Stream.good] at h; exact h.2

theorem put_live {o : OStream} (h : o.failed = false) (t : List Char) :
    o.put t = { o with out := o.out ++ (List.replicate (o.width - t.length) o.fill ++ t), width := 0 } := by
  simp [OStream.put, h]

theorem put_step {p : Policy} {s0 s : Stream} {o : OStream} (hr : Rel s0 s o) (t : List Char) :
    ((put p s t).1 = .ok ∧ Rel s0 (put p s t).2 (o.put t)) ∨
    ((put p s t).1 = .failure ∧ (put p s t).2.out = s0.out ++ (o.put t).out.take s0.room ∧ s0.room < (o.put t).out.length ∧
      (put p s t).2.boolalpha = o.boolalpha ∧ (put p s t).2.bad = true ∧ (put p s t).2.room = 0 ∧ (s0.exBad = true ∨ s0.exFail = true)) := by
  have hl := put_live hr.live t
  cases hg : s.good with
  | true =>
    have hpad : List.replicate (s.width - t.length) s.fill ++ t = List.replicate (o.width - t.length) o.fill ++ t := by
      rw [hr.width hg, hr.fill]
    generalize hP : List.replicate (o.width - t.length) o.fill ++ t = P at hl hpad
    have hlen := hr.goodLen hg
    have hroom := hr.goodRoom hg
    have hbf : s.bad = false ∧ s.fail = false := by simpa [Stream.good] using hg
    by_cases hfit : P.length ≤ s.room
    · left
      have hput : put p s t = (.ok, { s with out := s.out ++ P, room := s.room - P.length, width := 0 }) := by
        simp only [put, hg, if_true, hpad, if_pos hfit]
      rw [hput, hl]
      have hg' : Stream.good { s with out := s.out ++ P, room := s.room - P.length, width := 0 } = true := hg
      refine ⟨rfl, hr.live, ?_, ?_, ?_, fun _ => rfl, ?_, ?_, hr.fill, hr.alpha, hr.exBad, hr.exFail, fun _ => hg, hr.failLess⟩
      · show s.out ++ P = _
        rw [hr.out]
        have h1 : o.out.take s0.room = o.out := List.take_of_length_le hlen
        have h2 : (o.out ++ P).take s0.room = o.out ++ P := List.take_of_length_le (by rw [List.length_append]; omega)
        show _ = s0.out ++ (o.out ++ P).take s0.room
        rw [h1, h2, List.append_assoc]
      · intro _; show (o.out ++ P).length ≤ _; rw [List.length_append]; omega
      · intro _; show s.room - P.length = s0.room - (o.out ++ P).length; rw [List.length_append]; omega
      · intro h; rw [hg'] at h; cases h
      · intro h; rw [hg'] at h; cases h
    · have hout : s.out ++ P.take s.room = s0.out ++ (o.out ++ P).take s0.room := by
        rw [hr.out, List.take_append, hroom, List.append_assoc]
      have hlong : s0.room < (o.out ++ P).length := by rw [List.length_append]; omega
      by_cases hex : s.exBad = true
      · right
        have hput : put p s t = (.failure, { s with out := s.out ++ P.take s.room, room := 0, bad := true }) := by
          simp only [put, hg, if_true, hpad, if_neg hfit]
          simp [Stream.throws, hex]
        rw [hput, hl]
        exact ⟨rfl, hout, hlong, hr.alpha, rfl, rfl, .inl (hr.exBad ▸ hex)⟩
      · left
        have hex' : s.exBad = false := by simpa using hex
        have hput : put p s t = (.ok, { s with out := s.out ++ P.take s.room, room := 0, bad := true, width := 0 }) := by
          simp only [put, hg, if_true, hpad, if_neg hfit]
          simp [Stream.throws, hex', hbf.2]
        rw [hput, hl]
        have hg' : Stream.good { s with out := s.out ++ P.take s.room, room := 0, bad := true, width := 0 } = false := rfl
        refine ⟨rfl, hr.live, hout, ?_, ?_, ?_, fun _ => hlong, fun _ => ⟨rfl, rfl⟩, hr.fill, hr.alpha, hr.exBad, hr.exFail, ?_, hr.failLess⟩
        · intro h; rw [hg'] at h; cases h
        · intro h; rw [hg'] at h; cases h
        · intro _; rfl
        · intro h; rw [← hr.exBad, hex'] at h; cases h
  | false =>
    have hlen := hr.badLen hg
    have hbr := hr.badRoom hg
    have htake : ∀ P : List Char, (o.out ++ P).take s0.room = o.out.take s0.room := fun P => by
      rw [List.take_append_of_le_length (by omega)]
    have hlong : ∀ P : List Char, s0.room < (o.out ++ P).length := fun P => by rw [List.length_append]; omega
    have hex : s0.exBad = false := by
      cases h : s0.exBad with
      | false => rfl
      | true => rw [hr.masked h] at hg; cases hg
    have hex' : s.exBad = false := by rw [hr.exBad, hex]
    generalize hP : List.replicate (o.width - t.length) o.fill ++ t = P at hl
    by_cases hp : p s.bad s.fail = true
    · by_cases hf : s.exFail = true
      · right
        have hput : put p s t = (.failure, { s with fail := true }) := by
          simp only [put, hg, Bool.false_eq_true, if_false, if_pos hp]
          simp [Stream.throws, hf]
        rw [hput, hl]
        exact ⟨rfl, by show s.out = _; rw [hr.out]; show _ = _ ++ (o.out ++ P).take s0.room; rw [htake], hlong P, hr.alpha, hbr.2, hbr.1,
          .inr (hr.exFail ▸ hf)⟩
      · left
        have hf' : s.exFail = false := by simpa using hf
        have hput : put p s t = (.ok, { s with fail := true }) := by
          simp only [put, hg, Bool.false_eq_true, if_false, if_pos hp]
          simp [Stream.throws, hf', hex']
        rw [hput, hl]
        have hg' : Stream.good { s with fail := true } = false := by simp [Stream.good]
        refine ⟨rfl, hr.live, ?_, ?_, ?_, ?_, fun _ => hlong P, fun _ => hbr, hr.fill, hr.alpha, hr.exBad, hr.exFail, ?_, ?_⟩
        · show s.out = _; rw [hr.out]; show _ = _ ++ (o.out ++ P).take s0.room; rw [htake]
        · intro h; rw [hg'] at h; cases h
        · intro h; rw [hg'] at h; cases h
        · intro h; rw [hg'] at h; cases h
        · intro h; rw [hex] at h; cases h
        · intro h; rw [← hr.exFail, hf'] at h; cases h
    · left
      have hput : put p s t = (.ok, s) := by
        simp only [put, hg, Bool.false_eq_true, if_false, if_neg hp]
      rw [hput, hl]
      refine ⟨rfl, hr.live, ?_, ?_, ?_, ?_, fun _ => hlong P, fun _ => hbr, hr.fill, hr.alpha, hr.exBad, hr.exFail, hr.masked, hr.failLess⟩
      · show s.out = _; rw [hr.out]; show _ = _ ++ (o.out ++ P).take s0.room; rw [htake]
      · intro h; rw [hg] at h; cases h
      · intro h; rw [hg] at h; cases h
      · intro h; rw [hg] at h; cases h

theorem alpha_step {s0 s : Stream} {o : OStream} (hr : Rel s0 s o) (b : Bool) : Rel s0 { s with boolalpha := b } { o with boolalpha := b } :=
  ⟨hr.live, hr.out, hr.goodLen, hr.goodRoom, hr.width, hr.badLen, hr.badRoom, hr.fill, rfl, hr.exBad, hr.exFail, hr.masked, hr.failLess⟩

theorem putBool_put (o : OStream) (b : Bool) : o.putBool b = o.put (boolText o.boolalpha b) := rfl

theorem out_grows (o : OStream) : ∀ l : List Op, ∃ t, (runO o l).out = o.out ++ t := by
  intro l
  induction l generalizing o with
  | nil => exact ⟨[], by simp [runO]⟩
  | cons a l ih =>
    have h1 : ∃ t, (runO1 o a).out = o.out ++ t := by
      cases a with
      | put t =>
        cases h : o.failed with
        | true => exact ⟨[], by simp [runO1, OStream.put, h]⟩
        | false => exact ⟨_, by simp only [runO1]; rw [put_live h]⟩
      | bool b =>
        cases h : o.failed with
        | true => exact ⟨[], by simp [runO1, OStream.putBool, OStream.put, h]⟩
        | false => exact ⟨_, by simp only [runO1]; rw [putBool_put, put_live h]⟩
      | alpha b => exact ⟨[], by simp [runO1]⟩
      | raise => exact ⟨[], by simp [runO1]⟩
    obtain ⟨t, ht⟩ := h1
    obtain ⟨t', ht'⟩ := ih (runO1 o a)
    exact ⟨t ++ t', by show (runO (runO1 o a) l).out = _; rw [ht', ht, List.append_assoc]⟩

/-- What a run comes to. -/
theorem run_rel {p : Policy} {s0 : Stream} : ∀ {l : List Op} {s : Stream} {o : OStream}, Quiet l → Rel s0 s o →
    ((run p s l).1 = .ok ∧ Rel s0 (run p s l).2 (runO o l)) ∨
    ((run p s l).1 = .failure ∧ (run p s l).2.out = s0.out ++ (runO o l).out.take s0.room ∧ s0.room < (runO o l).out.length ∧
      (run p s l).2.bad = true ∧ (run p s l).2.room = 0 ∧ (s0.exBad = true ∨ s0.exFail = true))
  | [], s, o, _, hr => .inl ⟨rfl, hr⟩
  | a :: l, s, o, hq, hr => by
    have hq' : Quiet l := fun x hx => hq x (List.mem_cons_of_mem _ hx)
    have hstep : ((run1 p s a).1 = .ok ∧ Rel s0 (run1 p s a).2 (runO1 o a)) ∨
        ((run1 p s a).1 = .failure ∧ (run1 p s a).2.out = s0.out ++ (runO1 o a).out.take s0.room ∧ s0.room < (runO1 o a).out.length ∧
          (run1 p s a).2.bad = true ∧ (run1 p s a).2.room = 0 ∧ (s0.exBad = true ∨ s0.exFail = true)) := by
      have hput : ∀ t, ((put p s t).1 = .ok ∧ Rel s0 (put p s t).2 (o.put t)) ∨
          ((put p s t).1 = .failure ∧ (put p s t).2.out = s0.out ++ (o.put t).out.take s0.room ∧ s0.room < (o.put t).out.length ∧
            (put p s t).2.bad = true ∧ (put p s t).2.room = 0 ∧ (s0.exBad = true ∨ s0.exFail = true)) := fun t => by
        rcases put_step (p := p) hr t with h | ⟨h1, h2, h3, _, h4⟩
        · exact .inl h
        · exact .inr ⟨h1, h2, h3, h4⟩
      cases a with
      | put t => exact hput t
      | bool b =>
        have := hput (boolText o.boolalpha b)
        simp only [run1, runO1, putBool_put, hr.alpha]
        exact this
      | alpha b => exact .inl ⟨rfl, alpha_step hr b⟩
      | raise => exact absurd rfl (hq _ (List.mem_cons_self ..))
    show (((match run1 p s a with | (.ok, s) => run p s l | r => r).1 = .ok ∧ _) ∨ _)
    rcases hstep with ⟨h1, h2⟩ | ⟨h1, h2, h3, h4, h5, h6⟩
    · have he : run p s (a :: l) = run p (run1 p s a).2 l := by
        rw [run]
        generalize run1 p s a = r at h1
        obtain ⟨oc, s'⟩ := r
        simp only at h1; subst h1; rfl
      have := run_rel (p := p) (l := l) hq' h2
      rw [← he] at this
      exact this
    · have he : run p s (a :: l) = run1 p s a := by
        rw [run]
        generalize run1 p s a = r at h1
        obtain ⟨oc, s'⟩ := r
        simp only at h1; subst h1; rfl
      obtain ⟨t, ht⟩ := out_grows (runO1 o a) l
      have hlen : s0.room < (runO o (a :: l)).out.length := by
        show s0.room < (runO (runO1 o a) l).out.length
        rw [ht, List.length_append]; omega
      right
      show (run p s (a :: l)).1 = .failure ∧ (run p s (a :: l)).2.out = _ ∧ _ ∧ (run p s (a :: l)).2.bad = true ∧ (run p s (a :: l)).2.room = 0 ∧ _
      rw [he]
      refine ⟨h1, ?_, hlen, h4, h5, h6⟩
      rw [h2]
      show _ = s0.out ++ (runO (runO1 o a) l).out.take s0.room
      rw [ht, List.take_append_of_le_length (by omega)]

/-! ## The properties -/

/-- **C138**: whatever the exception mask, the characters that arrive are those of the full text that the buffer takes. -/
theorem C138_prefix (p : Policy) {s : Stream} (hg : s.good = true) {l : List Op} (hq : Quiet l) :
    (run p s l).2.out = s.out ++ (full s l).take s.room := by
  rcases run_rel (p := p) hq (rel_start hg) with ⟨_, h⟩ | ⟨_, h, _⟩
  · exact h.out
  · exact h

/-- **C138**: if the buffer takes everything, the stream is good, nothing is thrown and the whole text is there. -/
theorem C138_fits (p : Policy) {s : Stream} (hg : s.good = true) {l : List Op} (hq : Quiet l) (hf : (full s l).length ≤ s.room) :
    (run p s l).1 = .ok ∧ (run p s l).2.good = true ∧ (run p s l).2.out = s.out ++ full s l ∧ (run p s l).2.room = s.room - (full s l).length := by
  rcases run_rel (p := p) hq (rel_start hg) with ⟨h1, h⟩ | ⟨_, _, h, _⟩
  · have hgood : (run p s l).2.good = true := by
      cases h' : (run p s l).2.good with
      | true => rfl
      | false => have := h.badLen h'; unfold full at hf; omega
    refine ⟨h1, hgood, ?_, h.goodRoom hgood⟩
    rw [h.out, List.take_of_length_le (h.goodLen hgood)]
    rfl
  · unfold full at hf; omega

/-- **C138**: if the buffer does not take everything, `badbit` is set, and an exception is thrown if the mask asks for it; without a mask nothing
is thrown. -/
theorem C138_fails (p : Policy) {s : Stream} (hg : s.good = true) {l : List Op} (hq : Quiet l) (hf : s.room < (full s l).length) :
    (run p s l).2.bad = true ∧ (run p s l).2.room = 0 ∧ (s.exBad = true → (run p s l).1 = .failure) ∧
    (s.exBad = false → s.exFail = false → (run p s l).1 = .ok) := by
  rcases run_rel (p := p) hq (rel_start hg) with ⟨h1, h⟩ | ⟨h1, _, _, h2, h3, h4⟩
  · have hbad : (run p s l).2.good = false := by
      cases h' : (run p s l).2.good with
      | false => rfl
      | true => have := h.goodLen h'; unfold full at hf; omega
    refine ⟨(h.badRoom hbad).2, (h.badRoom hbad).1, fun hm => ?_, fun _ _ => h1⟩
    rw [h.masked hm] at hbad; cases hbad
  · refine ⟨h2, h3, fun _ => h1, fun ha hb => ?_⟩
    rw [ha, hb] at h4; simp at h4

/-- **C138**: without a mask the flags are afterwards those of a stream that takes everything. -/
theorem C138_flags (p : Policy) {s : Stream} (hg : s.good = true) {l : List Op} (hq : Quiet l) (h1 : s.exBad = false) (h2 : s.exFail = false) :
    (run p s l).2.boolalpha = (runO ⟨[], s.boolalpha, s.width, s.fill, false⟩ l).boolalpha ∧ (run p s l).2.fill = s.fill := by
  rcases run_rel (p := p) hq (rel_start hg) with ⟨_, h⟩ | ⟨_, _, _, _, _, h4⟩
  · refine ⟨h.alpha, ?_⟩
    rw [h.fill]
    have : ∀ (o : OStream) (l : List Op), (runO o l).fill = o.fill := by
      intro o l
      induction l generalizing o with
      | nil => rfl
      | cons a l ih =>
        show (runO (runO1 o a) l).fill = _
        rw [ih]
        cases a <;> simp only [runO1, OStream.putBool, OStream.put] <;> split <;> rfl
    exact this _ _
  · rw [h1, h2] at h4; simp at h4

/-- On a stream that is not good nothing is written. -/
theorem C138_notGood (p : Policy) : ∀ {l : List Op} {s : Stream}, s.good = false → (run p s l).2.out = s.out ∧ (run p s l).2.good = false
  | [], s, h => ⟨rfl, h⟩
  | a :: l, s, h => by
    have hput : ∀ t, (put p s t).2.out = s.out ∧ (put p s t).2.good = false := fun t => by
      simp only [put, h, Bool.false_eq_true, if_false]
      split
      · split <;> exact ⟨rfl, by simp [Stream.good]⟩
      · exact ⟨rfl, h⟩
    have hstep : (run1 p s a).2.out = s.out ∧ (run1 p s a).2.good = false := by
      cases a with
      | put t => exact hput t
      | bool b => exact hput _
      | alpha b => exact ⟨rfl, h⟩
      | raise => exact ⟨rfl, h⟩
    rw [run]
    generalize run1 p s a = r at hstep
    obtain ⟨oc, s'⟩ := r
    cases oc with
    | ok =>
      have := C138_notGood p (l := l) hstep.2
      exact ⟨this.1.trans hstep.1, this.2⟩
    | failure => exact hstep
    | raised => exact hstep

theorem run_cons (p : Policy) (a : Op) (l : List Op) (s : Stream) :
    run p s (a :: l) = if (run1 p s a).1 = .ok then run p (run1 p s a).2 l else run1 p s a := by
  rw [run]
  obtain ⟨oc, s'⟩ := run1 p s a
  cases oc <;> rfl

theorem run_append (p : Policy) : ∀ (l m : List Op) (s : Stream),
    run p s (l ++ m) = if (run p s l).1 = .ok then run p (run p s l).2 m else run p s l
  | [], m, s => by simp [run]
  | a :: l, m, s => by
    rw [List.cons_append, run_cons, run_cons]
    by_cases h : (run1 p s a).1 = .ok
    · rw [if_pos h, if_pos h]
      exact run_append p l m _
    · rw [if_neg h, if_neg h, if_neg h]

/-- Specification: something is written. -/
def Writes (l : List Op) : Prop := ∃ o ∈ l, (∃ t, o = .put t) ∨ ∃ b, o = .bool b

theorem notGood_throws {p : Policy} : ∀ {l : List Op} {s : Stream}, Quiet l → Writes l → s.good = false → p s.bad s.fail = true → s.exFail = true →
    (run p s l).1 = .failure
  | [], s, _, ⟨_, h, _⟩, _, _, _ => absurd h (by simp)
  | a :: l, s, hq, hw, hg, hp, hf => by
    have hput : ∀ t, (put p s t).1 = .failure := fun t => by
      simp only [put, hg, Bool.false_eq_true, if_false, if_pos hp]
      simp [Stream.throws, hf]
    rw [run_cons]
    cases a with
    | put t => rw [if_neg]; exact hput t; rw [show (run1 p s (.put t)).1 = _ from hput t]; exact fun h => by cases h
    | bool b => rw [if_neg]; exact hput _; rw [show (run1 p s (.bool b)).1 = _ from hput _]; exact fun h => by cases h
    | alpha b =>
      refine notGood_throws (l := l) (s := { s with boolalpha := b }) (fun x hx => hq x (List.mem_cons_of_mem _ hx)) ?_ hg hp hf
      obtain ⟨o, ho, hw⟩ := hw
      rcases List.mem_cons.1 ho with rfl | ho
      · rcases hw with ⟨t, ht⟩ | ⟨t, ht⟩ <;> cases ht
      · exact ⟨o, ho, hw⟩
    | raise => exact absurd rfl (hq _ (List.mem_cons_self ..))

theorem notGood_silent {p : Policy} (hp : ∀ f, p true f = false) : ∀ {l : List Op} {s : Stream}, Quiet l → s.bad = true → (run p s l).1 = .ok
  | [], s, _, _ => rfl
  | a :: l, s, hq, hb => by
    have hg : s.good = false := by simp [Stream.good, hb]
    have hput : ∀ t, put p s t = (.ok, s) := fun t => by
      simp only [put, hg, Bool.false_eq_true, if_false, hb, hp]
    have hq' : Quiet l := fun x hx => hq x (List.mem_cons_of_mem _ hx)
    rw [run_cons]
    cases a with
    | put t => simp only [run1, hput]; exact notGood_silent hp (l := l) hq' hb
    | bool b => simp only [run1, hput]; exact notGood_silent hp (l := l) hq' hb
    | alpha b => exact notGood_silent hp (l := l) (s := { s with boolalpha := b }) hq' hb
    | raise => exact absurd rfl (hq _ (List.mem_cons_self ..))

/-- **C138**: with `failbit` in the mask, if the sentry sets it on a stream that has failed (as in libstdc++), an exception is thrown at the latest by
the next operation that writes. -/
theorem C138_failbit (p : Policy) (hp : p true false = true) {s : Stream} (hg : s.good = true) (hf : s.exFail = true)
    {a b : List Op} (ha : Quiet a) (hb' : Quiet b) (hlen : s.room < (full s a).length) (hw : Writes b) : (run p s (a ++ b)).1 = .failure := by
  rw [run_append]
  split
  · next h =>
    rcases run_rel (p := p) ha (rel_start hg) with ⟨_, hr⟩ | ⟨h1, _⟩
    · have hbad : (run p s a).2.good = false := by
        cases h' : (run p s a).2.good with
        | false => rfl
        | true => have := hr.goodLen h'; unfold full at hlen; omega
      refine notGood_throws hb' hw hbad ?_ (by rw [hr.exFail, hf])
      rw [(hr.badRoom hbad).2, hr.failLess hf, hp]
    · rw [h] at h1; cases h1
  · next h =>
    rcases run_rel (p := p) ha (rel_start hg) with ⟨h1, _⟩ | ⟨h1, _⟩
    · exact absurd h1 h
    · exact h1

/-- **C138**: if the sentry does not set `failbit`, nothing is ever thrown unless `badbit` is in the mask. -/
theorem C138_failbit_silent (p : Policy) (hp : ∀ f, p true f = false) : ∀ {l : List Op} {s : Stream}, s.good = true → s.exBad = false → Quiet l →
    (run p s l).1 = .ok
  | [], _, _, _, _ => rfl
  | a :: l, s, hg, hb, hq => by
    have hq' : Quiet l := fun x hx => hq x (List.mem_cons_of_mem _ hx)
    have hf : s.fail = false := by simp [Stream.good] at hg; exact hg.2
    have hput : ∀ t, (put p s t).1 = .ok ∧ ((put p s t).2.good = true ∧ (put p s t).2.exBad = false ∨ (put p s t).2.bad = true) := fun t => by
      simp only [put, hg, if_true]
      split
      · exact ⟨rfl, .inl ⟨hg, hb⟩⟩
      · simp [Stream.throws, hb, hf]
    have hnext : ∀ t, (run p (put p s t).2 l).1 = .ok := fun t => by
      rcases (hput t).2 with ⟨h1, h2⟩ | h
      · exact C138_failbit_silent p hp h1 h2 hq'
      · exact notGood_silent hp hq' h
    rw [run_cons]
    cases a with
    | put t => rw [if_pos (show (run1 p s (.put t)).1 = .ok from (hput t).1)]; exact hnext t
    | bool b => rw [if_pos (show (run1 p s (.bool b)).1 = .ok from (hput _).1)]; exact hnext _
    | alpha b => exact C138_failbit_silent p hp (l := l) (s := { s with boolalpha := b }) hg hb hq'
    | raise => exact absurd rfl (hq _ (List.mem_cons_self ..))

/-- **C138**: if the last operation is the one that fails, nothing is thrown with `failbit` in the mask: that the text is not complete is only seen in
the state. -/
theorem C138_failbit_last (p : Policy) {s : Stream} (hg : s.good = true) (hb : s.exBad = false) {a : List Op} {t : List Char} (ha : Quiet a)
    (hlen : (full s a).length ≤ s.room) : (run p s (a ++ [.put t])).1 = .ok := by
  obtain ⟨h1, h2, _, _⟩ := C138_fits p hg ha hlen
  rw [run_append, if_pos h1, run_cons]
  rcases run_rel (p := p) ha (rel_start hg) with ⟨_, hr⟩ | ⟨h3, _⟩
  · have : (run1 p (run p s a).2 (.put t)).1 = .ok := by
      have hbf : (run p s a).2.fail = false := by simp [Stream.good] at h2; exact h2.2
      have hex : (run p s a).2.exBad = false := by rw [hr.exBad, hb]
      simp only [run1, put, h2, if_true]
      split
      · rfl
      · simp [Stream.throws, hbf, hex]
    rw [if_pos this]; rfl
  · rw [h1] at h3; cases h3

/-- **C138**: if the `operator<<` of an element throws, its exception is passed on, whatever the mask; what has arrived is what was written before. -/
theorem C138_raise (p : Policy) {s : Stream} (hg : s.good = true) {a b : List Op} (hq : Quiet a) :
    (run p s (a ++ .raise :: b)).2.out = s.out ++ (full s a).take s.room ∧
    ((full s a).length ≤ s.room ∨ s.exBad = false ∧ s.exFail = false → (run p s (a ++ .raise :: b)).1 = .raised) := by
  have he : run p s (a ++ .raise :: b) = if (run p s a).1 = .ok then (.raised, (run p s a).2) else run p s a := by
    rw [run_append]; rfl
  rw [he]
  refine ⟨?_, fun h => ?_⟩
  · rw [← C138_prefix p hg hq]; split <;> rfl
  · have : (run p s a).1 = .ok := by
      rcases h with h | ⟨h1, h2⟩
      · exact (C138_fits p hg hq h).1
      · by_cases hf : (full s a).length ≤ s.room
        · exact (C138_fits p hg hq hf).1
        · exact (C138_fails p hg hq (by omega)).2.2.2 h1 h2
    rw [if_pos this]

theorem loop_append (f : T → List Op) (a b : List Char) : ∀ (first : Bool) (xs ys : List T),
    loopOps f a b first (xs ++ ys) = loopOps f a b first xs ++ loopOps f a b (first && xs.isEmpty) ys
  | first, [], ys => by simp [loopOps]
  | first, x :: xs, ys => by simp [loopOps, loop_append f a b false xs ys]

/-- **C138**: printing a vector one of whose elements throws: the exception is passed on, and what arrives is the bracket, the elements before with
their separators, and what the element has written. -/
theorem C138_element (p : Policy) {s : Stream} (hg : s.good = true) (f : T → List Op) (xs ys : List T) (x : T) {a b : List Op}
    (hq : ∀ y ∈ xs, Quiet (f y)) (ha : Quiet a) (hx : f x = a ++ .raise :: b)
    (hm : s.exBad = false ∧ s.exFail = false) :
    let ops := loopOps f ['['] [','] true xs ++ .put (if xs.isEmpty then ['['] else [',']) :: a
    (run p s (vectorOps f (xs ++ x :: ys))).1 = .raised ∧ (run p s (vectorOps f (xs ++ x :: ys))).2.out = s.out ++ (full s ops).take s.room := by
  intro ops
  have hloop : ∀ (first : Bool) (l : List T), (∀ y ∈ l, Quiet (f y)) → Quiet (loopOps f ['['] [','] first l) := by
    intro first l
    induction l generalizing first with
    | nil => intro _ o ho; simp [loopOps] at ho
    | cons y l ih =>
      intro h o ho
      simp only [loopOps, List.cons_append, List.mem_cons, List.mem_append] at ho
      rcases ho with rfl | ho | ho
      · exact fun h => by cases h
      · exact h y (List.mem_cons_self ..) o ho
      · exact ih false (fun z hz => h z (List.mem_cons_of_mem _ hz)) o ho
  have hops : Quiet ops := by
    intro o ho
    simp only [ops, List.mem_append, List.mem_cons] at ho
    rcases ho with ho | rfl | ho
    · exact hloop true xs hq o ho
    · exact fun h => by cases h
    · exact ha o ho
  have he : ∃ c, vectorOps f (xs ++ x :: ys) = ops ++ .raise :: c := by
    refine ⟨b ++ (loopOps f ['['] [','] false ys ++ [.put [']']]), ?_⟩
    rw [vectorOps, loop_append]
    simp only [loopOps, hx, ops]
    cases xs <;> simp
  obtain ⟨c, hc⟩ := he
  rw [hc]
  obtain ⟨h1, h2⟩ := C138_raise p hg (b := c) hops
  exact ⟨h2 (.inr hm), h1⟩

/-! ## Words and flags -/

/-- **C138** is false for the flags of the stream: if printing a word is interrupted by an exception, the stream is left with `noboolalpha`, whatever
it had before. -/
theorem C138_refuted : ∃ (s : Stream) (w : BinWord.Word), s.good = true ∧ s.boolalpha = true ∧ s.exBad = true ∧
    (∀ p, (run p s (wordOps w)).1 = .failure ∧ (run p s (wordOps w)).2.boolalpha = false) :=
  ⟨⟨[], 1, true, 0, ' ', false, false, true, false⟩, [true, false], rfl, rfl, rfl, fun _ => ⟨rfl, rfl⟩⟩

theorem bools_alpha (p : Policy) : ∀ (w : List Bool) (s : Stream), (run p s (w.map Op.bool)).2.boolalpha = s.boolalpha
  | [], s => rfl
  | b :: w, s => by
    have hput : ∀ t, (put p s t).2.boolalpha = s.boolalpha := fun t => by
      simp only [put]
      repeat' split
      all_goals rfl
    have h1 := hput (boolText s.boolalpha b)
    simp only [List.map_cons, run, run1]
    generalize put p s (boolText s.boolalpha b) = r at h1
    obtain ⟨oc, s'⟩ := r
    cases oc with
    | ok => exact (bools_alpha p w s').trans h1
    | failure => exact h1
    | raised => exact h1

/-- **C138**: the flag after printing a word that is not empty, on any stream: `boolalpha` if the operator returns, `noboolalpha` if it throws. -/
theorem C138_word (p : Policy) (s : Stream) {w : BinWord.Word} (hw : w ≠ []) :
    ((run p s (wordOps w)).2.boolalpha = true ↔ (run p s (wordOps w)).1 = .ok) := by
  cases w with
  | nil => exact absurd rfl hw
  | cons b w =>
    have he : run p s (wordOps (b :: w)) = run p { s with boolalpha := false } ((b :: w).map .bool ++ [.alpha true]) := rfl
    have hb := bools_alpha p (b :: w) { s with boolalpha := false }
    rw [he, run_append]
    split
    · next h => exact ⟨fun _ => rfl, fun _ => rfl⟩
    · next h => rw [hb]; exact ⟨(fun h' => by cases h'), fun h' => absurd h' h⟩

/-! ## Examples -/

/-- `os << i`. -/
private def int (i : Int) : List Op := [.put (OStream.intText i)]

private def st (room : Nat) (exBad : Bool) : Stream := ⟨[], room, false, 0, ' ', false, false, exBad, false⟩

example : (run (fun b _ => b) (st 100 true) (vectorOps int [1, 2])) = (.ok, { st 95 true with out := ['[', '1', ',', '2', ']'] }) := by decide +kernel
example : (run (fun b _ => b) (st 3 true) (vectorOps int [1, 2])).1 = .failure := by decide +kernel
example : (run (fun b _ => b) (st 3 true) (vectorOps int [1, 2])).2.out = ['[', '1', ','] := by decide +kernel
example : (run (fun b _ => b) (st 3 false) (vectorOps int [1, 2])).1 = .ok := by decide +kernel
example : (run (fun b _ => b) { st 3 false with exFail := true } (vectorOps int [1, 2])).1 = .failure := by decide +kernel
example : (run (fun _ _ => false) { st 3 false with exFail := true } (vectorOps int [1, 2])).1 = .ok := by decide +kernel
example : full (st 3 true) (vectorOps int [1, 2]) = ['[', '1', ',', '2', ']'] := by decide +kernel
example : Quiet (vectorOps int [1, 2]) ∧ (st 3 true).good = true := by unfold Quiet; decide +kernel
example : (run (fun b _ => b) (st 9 true) (vectorOps (fun i => if i = 2 then [.put ['x'], .raise] else int i) [1, 2, 3])).2.out =
    ['[', '1', ',', 'x'] := by decide +kernel

end Helper.Seq.Sink
