import Verif.StackTrace.Model
import Verif.Stream.Lemmas
/-!
# Property C66
-/
set_option linter.unusedSectionVars false
namespace Helper.StackTrace

/-- The line a frame should give. -/
def line (ptr : Nat → List Char) (i : Nat) (f : Frame) : Option (List Char) :=
  match f.dl, f.demangled with
  | none, _ => some (OStream.digits i ++ [' '] ++ ptr f.addr)
  | some _, some d => some d
  | some n, none => n

/-- All of the first 128 frames have a name or no symbol information at all. -/
def Named (fs : List Frame) : Prop := ∀ f ∈ fs, ∀ n, f.dl = some n → f.demangled.isSome ∨ n.isSome

theorem frame_ok (ptr : Nat → List Char) (i : Nat) (f : Frame) (s : St) (h : ∀ n, f.dl = some n → f.demangled.isSome ∨ n.isSome) :
    ∃ l, line ptr i f = some l ∧ frame ptr i f s = .ok ⟨s.out ++ l ++ ['\n'], s.live⟩ := by
  unfold frame line
  cases hd : f.dl with
  | none => exact ⟨_, rfl, by simp⟩
  | some n =>
    cases hm : f.demangled with
    | some d => exact ⟨d, rfl, by simp⟩
    | none =>
      cases hn : n with
      | some t => exact ⟨t, rfl, by simp⟩
      | none =>
        have := h n hd
        rw [hm, hn] at this
        simp at this

/-- The lines for frames numbered from `i`. -/
def lines (ptr : Nat → List Char) : Nat → List Frame → List (List Char)
  | _, [] => []
  | i, f :: fs => (line ptr i f).getD [] :: lines ptr (i + 1) fs

def text (ls : List (List Char)) : List Char := ls.flatMap (· ++ ['\n'])

theorem loop_ok (ptr : Nat → List Char) : ∀ (fs : List Frame) (i : Nat) (s : St), Named fs →
    loop ptr i fs s = .ok ⟨s.out ++ text (lines ptr i fs), s.live⟩ := by
  intro fs
  induction fs with
  | nil => intro i s _; simp [loop, lines, text]
  | cons f fs ih =>
    intro i s h
    obtain ⟨l, hl, hf⟩ := frame_ok ptr i f s (h f List.mem_cons_self)
    rw [loop, hf]
    simp only
    rw [ih (i + 1) _ fun g hg => h g (List.mem_cons_of_mem _ hg)]
    simp [lines, hl, text]

/-- C66: if every frame has a symbol name, or no symbol information at all, one line is written for each of the at most 128
innermost frames, in order, and all memory is freed. -/
theorem C66_named_partial (ptr : Nat → List Char) (ndebug : Bool) (stack : List Frame) (s : St) (h : Named (stack.take 128)) :
    ∃ ls : List (List Char), ls.length = min 128 stack.length ∧
      (∀ (i : Nat) (f : Frame), i < 128 → stack[i]? = some f → ls[i]? = line ptr i f) ∧
      stackTrace ptr true ndebug stack s = .ok ⟨s.out ++ text ls, s.live⟩ := by
  refine ⟨lines ptr 0 (stack.take 128), ?_, ?_, ?_⟩
  · have : ∀ (fs : List Frame) i, (lines ptr i fs).length = fs.length := by
      intro fs; induction fs with
      | nil => intro i; rfl
      | cons f fs ih => intro i; simp [lines, ih]
    rw [this, List.length_take]
  · have key : ∀ (fs : List Frame) (i j : Nat) (f : Frame), Named fs → fs[j]? = some f → (lines ptr i fs)[j]? = line ptr (i + j) f := by
      intro fs
      induction fs with
      | nil => intro i j f _ h; simp at h
      | cons g fs ih =>
        intro i j f hn hf
        cases j with
        | zero =>
          simp at hf
          subst hf
          obtain ⟨l, hl, _⟩ := frame_ok ptr i g ⟨[], 0⟩ (hn g List.mem_cons_self)
          simp [lines, hl]
        | succ j =>
          rw [List.getElem?_cons_succ] at hf
          rw [lines, List.getElem?_cons_succ, ih (i + 1) j f (fun x hx => hn x (List.mem_cons_of_mem _ hx)) hf]
          congr 1
          omega
    intro i f hi hf
    have := key (stack.take 128) 0 i f h (by rw [List.getElem?_take, if_pos hi]; exact hf)
    rwa [Nat.zero_add] at this
  · simp only [stackTrace, callstackSize, if_true]
    rw [loop_ok ptr _ 0 _ h]
    simp

/-- The number of lines, if names and addresses are written without line breaks. -/
theorem C66_count_partial (ptr : Nat → List Char) (hp : ∀ a, '\n' ∉ ptr a) (ndebug : Bool) (stack : List Frame) (s : St)
    (h : Named (stack.take 128)) (hn : ∀ (i : Nat) (f : Frame), f ∈ stack → ∀ l, line ptr i f = some l → '\n' ∉ l) :
    ∃ s', stackTrace ptr true ndebug stack s = .ok s' ∧ s'.out.count '\n' = s.out.count '\n' + min 128 stack.length := by
  obtain ⟨ls, h1, h2, h3⟩ := C66_named_partial ptr ndebug stack s h
  refine ⟨_, h3, ?_⟩
  have key : ∀ ls : List (List Char), (∀ l ∈ ls, '\n' ∉ l) → (text ls).count '\n' = ls.length := by
    intro ls
    induction ls with
    | nil => intro _; rfl
    | cons l ls ih =>
      intro h
      have e : text (l :: ls) = l ++ ['\n'] ++ text ls := by simp [text]
      rw [e, List.count_append, List.count_append, List.count_eq_zero.2 (h l List.mem_cons_self),
        ih fun x hx => h x (List.mem_cons_of_mem _ hx)]
      simp
      omega
  rw [List.count_append, key ls ?_, h1]
  intro l hl
  obtain ⟨i, hi, rfl⟩ := List.mem_iff_getElem.1 hl
  have hi2 : i < stack.length := by omega
  have hi3 : i < 128 := by omega
  have hf := h2 i stack[i] hi3 (List.getElem?_eq_getElem hi2)
  rw [List.getElem?_eq_getElem hi] at hf
  exact hn i stack[i] (List.getElem_mem hi2) _ hf.symm

/-- C66 is false: a frame among the first 128 that lies in a known object file but matches no symbol, as in stripped
binaries and static functions, makes the behaviour undefined. -/
theorem C66_noName_refuted (ptr : Nat → List Char) (ndebug : Bool) (a b : List Frame) (f : Frame) (s : St) (ha : a.length < 128)
    (hn : Named a) (hf : f.dl = some none) (hd : f.demangled = none) :
    stackTrace ptr true ndebug (a ++ f :: b) s = .ub .nullDeref := by
  have key : ∀ (a : List Frame) (i : Nat) (s : St) (c : List Frame), Named a → loop ptr i (a ++ f :: c) s = .ub .nullDeref := by
    intro a
    induction a with
    | nil =>
      intro i s c _
      simp [loop, frame, hf, hd]
    | cons g a ih =>
      intro i s c hn
      obtain ⟨l, _, hg⟩ := frame_ok ptr i g s (hn g List.mem_cons_self)
      rw [List.cons_append, loop, hg]
      exact ih _ _ _ fun x hx => hn x (List.mem_cons_of_mem _ hx)
  simp only [stackTrace, callstackSize, if_true]
  have : (a ++ f :: b).take 128 = a ++ f :: b.take (128 - a.length - 1) := by
    rw [List.take_append, List.take_of_length_le (by omega)]
    obtain ⟨k, hk⟩ : ∃ k, 128 - a.length = k + 1 := ⟨127 - a.length, by omega⟩
    rw [hk, List.take_succ_cons]
    simp
  rw [this, key a 0 _ _ hn]

/-- C66 is false without memory: the assertion fails; with `NDEBUG` a null array is indexed. -/
theorem C66_memory_refuted (ptr : Nat → List Char) (stack : List Frame) (s : St) :
    stackTrace ptr false false stack s = .abort ∧
    ((∃ f ∈ stack.take 128, f.dl.isSome) → stackTrace ptr false true stack s = .ub .nullDeref) := by
  refine ⟨rfl, fun ⟨f, hf, h⟩ => ?_⟩
  have h1 : (stack.take 128).isEmpty = false := by
    cases h : stack.take 128 with
    | nil => rw [h] at hf; cases hf
    | cons _ _ => rfl
  have h2 : (stack.take 128).any (·.dl.isSome) = true := List.any_eq_true.2 ⟨f, hf, h⟩
  simp [stackTrace, callstackSize, h1, h2]

/-- C66: with `NDEBUG` and no memory, a stack without any symbol information is still written. -/
theorem C66_noInfo_partial (ptr : Nat → List Char) (stack : List Frame) (s : St) (h : ∀ f ∈ stack.take 128, f.dl = none) :
    stackTrace ptr false true stack s = .ok ⟨s.out ++ text (lines ptr 0 (stack.take 128)), s.live⟩ := by
  have hn : Named (stack.take 128) := by intro f hf n hd; rw [h f hf] at hd; cases hd
  have h2 : (stack.take 128).any (·.dl.isSome) = false := by
    rw [List.any_eq_false]; intro f hf; simp [h f hf]
  simp only [stackTrace, callstackSize, h2]
  cases hs : (stack.take 128).isEmpty with
  | true => rw [List.isEmpty_iff.1 hs]; simp [lines, text]
  | false => simp [loop_ok ptr _ 0 s hn]

/-- C66: built without `ENABLE_STACK_TRACE`, nothing is written. -/
theorem C66_disabled (s : St) : stackTraceDisabled s = .ok s := rfl

example : stackTrace (fun _ => ['p']) true false [⟨5, some (some ['f']), none⟩, ⟨6, none, none⟩] ⟨[], 0⟩ =
    .ok ⟨['f', '\n', '1', ' ', 'p', '\n'], 0⟩ := by decide +kernel
example : stackTrace (fun _ => ['p']) true false [⟨5, some (some ['f']), none⟩, ⟨6, some none, none⟩] ⟨[], 0⟩ =
    .ub .nullDeref := by decide +kernel

end Helper.StackTrace
