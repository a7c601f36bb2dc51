import Verif.Writable.Model
/-!
# Properties C68 and C76
-/
set_option linter.unusedSectionVars false
namespace Helper.Writable

/-- C68: `os << w` has the effect of the write function and returns `os`, whatever the function returns. -/
theorem C68_interface (os : Nat) (f : Write) (w : W) :
    (shl os f w).2 = (f os w).2 ∧ (shl os f w).1 = os ∧ (callWrite os f w) = f os w := ⟨rfl, rfl, rfl⟩

/-- C68: chained output is the outputs one after the other on the same stream, whatever the write functions return. -/
theorem C68_chain (os : Nat) : ∀ (fs : List Write) (w : W),
    chain os fs w = (os, fs.foldl (fun w f => (f os w).2) w) := by
  intro fs
  induction fs with
  | nil => intro w; rfl
  | cons f fs ih => intro w; rw [chain, List.foldl_cons]; exact ih _

/-- C68: texts appear in order and no other stream is touched. -/
theorem C68_texts (os : Nat) (ts : List (List Char)) (w : W) :
    (chain os (ts.map writes) w).2.text os = w.text os ++ ts.flatten ∧
    ∀ s, s ≠ os → (chain os (ts.map writes) w).2.text s = w.text s := by
  rw [C68_chain]
  simp only
  induction ts generalizing w with
  | nil => simp
  | cons t ts ih =>
    rw [List.map_cons, List.foldl_cons]
    obtain ⟨h1, h2⟩ := ih (writes t os w).2
    refine ⟨?_, fun s hs => ?_⟩
    · rw [h1]; simp [writes]
    · rw [h2 s hs]; simp [writes, hs]

/-- C68: output of a temporary is defined iff the writer and the object are alive, and is then exactly what the writer writes. -/
theorem C68_temporary (fn : Nat → Nat → Write) (os a b : Nat) (w : W) :
    (w.alive a = true → w.alive b = true → shlTemp fn os (mkTemp a b) w = .ok (fn a b os w)) ∧
    (¬ (w.alive a = true ∧ w.alive b = true) → shlTemp fn os (mkTemp a b) w = .ub .dangling) := by
  constructor
  · intro h1 h2; simp [shlTemp, mkTemp, h1, h2]
  · intro h; exact if_neg h

/-- C68: chained output of temporaries, for writers that return the stream they are given and destroy nothing. -/
theorem C68_chainTemp_partial (fn : Nat → Nat → Write) (hs : ∀ a b os w, (fn a b os w).1 = os)
    (ha : ∀ a b os w, (fn a b os w).2.alive = w.alive) (os : Nat) : ∀ (ts : List Temp) (w : W),
    (∀ t ∈ ts, w.alive t.writer = true ∧ w.alive t.object = true) →
    chainTemp fn os ts w = .ok (os, ts.foldl (fun w t => (fn t.writer t.object os w).2) w) := by
  intro ts
  induction ts with
  | nil => intro w _; rfl
  | cons t ts ih =>
    intro w h
    have e : shlTemp fn os t w = .ok (fn t.writer t.object os w) := if_pos (h t List.mem_cons_self)
    rw [chainTemp, e]
    simp only [Res.bind]
    rw [hs, ih _ fun x hx => by rw [ha]; exact h x (List.mem_cons_of_mem _ hx)]
    rfl

/-- C68 is false for a writer that returns another stream (as `os << temporary` returns what the writer returns): the rest of the
chain goes there. -/
theorem C68_chainTemp_refuted : ∃ (fn : Nat → Nat → Write) (w : W), w.alive 0 = true ∧ w.alive 1 = true ∧
    ∃ w', chainTemp fn 0 [mkTemp 0 1, mkTemp 0 1] w = .ok (7, w') ∧ w'.text 0 = ['x'] ∧ w'.text 7 = ['x'] := by
  refine ⟨fun _ _ os w => (7, (writes ['x'] os w).2), ⟨fun _ => [], fun _ => true⟩, rfl, rfl, _, rfl, ?_, ?_⟩ <;> rfl

/-- C76 is false: the usual `_write(ostream&)` is not found, so that the generic `operator<<` does not exist for it; it exists for
`_write(ostream&&)`, with which it does not compile. -/
theorem C76_refuted : isWritable (some .lref) = false ∧ templateCompiles (some .lref) = true ∧
    isWritable (some .rref) = true ∧ templateCompiles (some .rref) = false := by decide +kernel

/-- C76: what `IsWritable` tells: it agrees with the use of `_write` only for a parameter of type `ostream const&`, for none, and for types without `_write`. -/
theorem C76_exact_partial (p : Option Param) :
    isWritable p = templateCompiles p ↔ p = some .constLref ∨ p = some .val ∨ p = none := by
  rcases p with _ | p
  · simp [isWritable, templateCompiles]
  · cases p <;> simp [isWritable, templateCompiles, Param.binds]

/-- C76: where the generic `operator<<` exists, it is the call of the write function. -/
theorem C76_effect_partial (os : Nat) (f : Write) (w : W) : shlTemplate os f w = f os w := rfl

end Helper.Writable
