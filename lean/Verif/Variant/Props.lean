import Verif.Variant.Model
import Verif.Meta.Props
/-!
# Properties C58 and C73
-/
set_option linter.unusedSectionVars false
namespace Helper.Variant

variable {T : Type} {ρ σ : Type}

/-- All overloads are the `switch` over their list of types. -/
theorem codedVisit_eq (code : T → Int) (v : Visitor T ρ σ) (c : Int) (ts : List T) (hd : (ts.map code).Nodup)
    (hn : ts.length ≤ 16) : codedVisit code v c ts = some (switch c (ts.map fun t => (code t, v t))) := by
  unfold codedVisit
  rw [if_pos hd]
  rcases ts with _ | ⟨t1, ts⟩; · rfl
  rcases ts with _ | ⟨t2, ts⟩; · rfl
  rcases ts with _ | ⟨t3, ts⟩; · rfl
  rcases ts with _ | ⟨t4, ts⟩; · rfl
  rcases ts with _ | ⟨t5, ts⟩; · rfl
  rcases ts with _ | ⟨t6, ts⟩; · rfl
  rcases ts with _ | ⟨t7, ts⟩; · rfl
  rcases ts with _ | ⟨t8, ts⟩; · rfl
  rcases ts with _ | ⟨t9, ts⟩; · rfl
  rcases ts with _ | ⟨t10, ts⟩; · rfl
  rcases ts with _ | ⟨t11, ts⟩; · rfl
  rcases ts with _ | ⟨t12, ts⟩; · rfl
  rcases ts with _ | ⟨t13, ts⟩; · rfl
  rcases ts with _ | ⟨t14, ts⟩; · rfl
  rcases ts with _ | ⟨t15, ts⟩; · rfl
  rcases ts with _ | ⟨t16, ts⟩; · rfl
  rcases ts with _ | ⟨t17, ts⟩; · rfl
  simp at hn

theorem code_inj (code : T → Int) : ∀ (ts : List T), (ts.map code).Nodup → ∀ t ∈ ts, ∀ u ∈ ts, code t = code u → t = u := by
  intro ts
  induction ts with
  | nil => intro _ t h; cases h
  | cons a ts ih =>
    intro hd t ht u hu e
    rw [List.map_cons, List.nodup_cons] at hd
    rcases List.mem_cons.1 ht with rfl | ht'
    · rcases List.mem_cons.1 hu with rfl | hu'
      · rfl
      · exact absurd (List.mem_map.2 ⟨u, hu', e.symm⟩) hd.1
    · rcases List.mem_cons.1 hu with rfl | hu'
      · exact absurd (List.mem_map.2 ⟨t, ht', e⟩) hd.1
      · exact ih hd.2 t ht' u hu' e

theorem switch_mem (code : T → Int) (v : Visitor T ρ σ) : ∀ (ts : List T) (t : T), t ∈ ts → (ts.map code).Nodup →
    switch (code t) (ts.map fun t => (code t, v t)) = v t := by
  intro ts
  induction ts with
  | nil => intro t h; cases h
  | cons u ts ih =>
    intro t h hd
    rw [List.map_cons, List.nodup_cons] at hd
    funext s
    rw [List.map_cons, switch]
    by_cases e : code t = code u
    · rw [if_pos e]
      rcases List.mem_cons.1 h with rfl | h
      · rfl
      · exact absurd (List.mem_map.2 ⟨t, h, e⟩) hd.1
    · rw [if_neg e]
      rcases List.mem_cons.1 h with rfl | h
      · exact absurd rfl e
      · rw [ih t h hd.2]

theorem switch_none (code : T → Int) (v : Visitor T ρ σ) (c : Int) (ts : List T) (h : ∀ t ∈ ts, code t ≠ c) (s : σ) :
    switch c (ts.map fun t => (code t, v t)) s = (.abort, s) := by
  induction ts with
  | nil => rfl
  | cons u ts ih =>
    rw [List.map_cons, switch, if_neg (fun e => h u List.mem_cons_self e.symm)]
    exact ih fun t ht => h t (List.mem_cons_of_mem _ ht)

/-- C58: with at most 16 alternatives with distinct codes, `accept` is the call of the visitor with the
alternative whose code is stored, and `abort()`, without a call, if there is none. -/
theorem C58_accept (code : T → Int) (ts : List T) (hd : (ts.map code).Nodup) (hn : ts.length ≤ 16) (v : Visitor T ρ σ) (x : CV) :
    (∀ t ∈ ts, code t = x.code → accept code ts v x = some (v t)) ∧
    ((∀ t ∈ ts, code t ≠ x.code) → accept code ts v x = some fun s => (.abort, s)) := by
  refine ⟨fun t ht e => ?_, fun h => ?_⟩
  · rw [accept, CV.getCode, ← e, codedVisit_eq code v _ ts hd hn, switch_mem code v ts t ht hd]
  · rw [accept, CV.getCode, codedVisit_eq code v _ ts hd hn]
    congr 1
    funext s
    exact switch_none code v x.code ts h s

/-- C58: a variant built from an alternative holds that alternative, no other one, and dispatches to it. It can
be built exactly from the alternatives. -/
theorem C58_alternative_partial [DecidableEq T] (conv : Int → Int) (code : T → Int) (ts : List T) (hd : (ts.map code).Nodup)
    (hn : ts.length ≤ 16) (hc : ∀ t ∈ ts, conv (code t) = code t) (t : T) :
    (t ∉ ts → ofAlt conv code ts t = none) ∧
    (t ∈ ts → ∃ x, ofAlt conv code ts t = some x ∧ x.getCode = code t ∧
      (∀ u ∈ ts, holds code u x = true ↔ u = t) ∧ ∀ v : Visitor T ρ σ, accept code ts v x = some (v t)) := by
  refine ⟨fun h => ?_, fun h => ?_⟩
  · rw [ofAlt, if_neg]
    rw [Meta.C59_isOneOf]; exact h
  · refine ⟨⟨code t⟩, ?_, rfl, fun u hu => ?_, fun v => (C58_accept code ts hd hn v _).1 t h rfl⟩
    · rw [ofAlt, if_pos ((Meta.C59_isOneOf t ts).2 h), hc t h]
    · simp only [holds, CV.getCode, beq_iff_eq]
      refine ⟨fun e => ?_, fun e => by rw [e]⟩
      exact code_inj code ts hd u hu t h e.symm

/-- C58: `holds_alternative` is the comparison of codes; on a variant made from a code it tells whether it is
that alternative's code. -/
theorem C58_holds (conv : Int → Int) (code : T → Int) (t : T) (c : Int) (hc : conv c = c) :
    (ofCode conv c).getCode = c ∧ (holds code t (ofCode conv c) = true ↔ code t = c) := by
  refine ⟨hc, ?_⟩
  rw [holds, beq_iff_eq, CV.getCode, ofCode, hc]
  exact eq_comm

/-- C58: `accept` exists for every number of alternatives up to 16 and for no larger one, and not for repeated codes. -/
theorem C58_wellFormed (code : T → Int) (ts : List T) (v : Visitor T ρ σ) (x : CV) :
    (accept code ts v x).isSome ↔ ts.length ≤ 16 ∧ (ts.map code).Nodup := by
  by_cases hd : (ts.map code).Nodup
  · by_cases hn : ts.length ≤ 16
    · simp [accept, codedVisit_eq code v _ ts hd hn, hd, hn]
    · simp only [hn, false_and, iff_false]
      unfold accept codedVisit
      rw [if_pos hd]
      rcases ts with _ | ⟨t1, ts⟩; · simp at hn
      rcases ts with _ | ⟨t2, ts⟩; · simp at hn
      rcases ts with _ | ⟨t3, ts⟩; · simp at hn
      rcases ts with _ | ⟨t4, ts⟩; · simp at hn
      rcases ts with _ | ⟨t5, ts⟩; · simp at hn
      rcases ts with _ | ⟨t6, ts⟩; · simp at hn
      rcases ts with _ | ⟨t7, ts⟩; · simp at hn
      rcases ts with _ | ⟨t8, ts⟩; · simp at hn
      rcases ts with _ | ⟨t9, ts⟩; · simp at hn
      rcases ts with _ | ⟨t10, ts⟩; · simp at hn
      rcases ts with _ | ⟨t11, ts⟩; · simp at hn
      rcases ts with _ | ⟨t12, ts⟩; · simp at hn
      rcases ts with _ | ⟨t13, ts⟩; · simp at hn
      rcases ts with _ | ⟨t14, ts⟩; · simp at hn
      rcases ts with _ | ⟨t15, ts⟩; · simp at hn
      rcases ts with _ | ⟨t16, ts⟩; · simp at hn
      rcases ts with _ | ⟨t17, ts⟩; · simp at hn
      simp
  · simp [accept, codedVisit, hd]

/-- C58: the codes must be values of `C`: if the code of an alternative is changed by the conversion to `C` and the
result is no code, the variant built from the alternative does not hold it and `accept` aborts. -/
theorem C58_narrowing [DecidableEq T] (conv : Int → Int) (code : T → Int) (ts : List T) (hd : (ts.map code).Nodup)
    (hn : ts.length ≤ 16) (t : T) (ht : t ∈ ts) (hc : ∀ u ∈ ts, code u ≠ conv (code t)) (v : Visitor T ρ σ) :
    ∃ x, ofAlt conv code ts t = some x ∧ holds code t x = false ∧ accept code ts v x = some fun s => (.abort, s) := by
  refine ⟨⟨conv (code t)⟩, by rw [ofAlt, if_pos ((Meta.C59_isOneOf t ts).2 ht)], ?_, (C58_accept code ts hd hn v _).2 hc⟩
  simp only [holds, CV.getCode, beq_eq_false_iff_ne]
  exact fun e => hc t ht e.symm

/-- Codes 0, 256 stored in an `unsigned char`. -/
example : ofAlt (· % 256) (fun n : Nat => 256 * n + 1) [0, 1] 1 = some ⟨1⟩ := by decide +kernel
example : (accept (fun n : Nat => (n : Int) * 10) [1, 2, 3] (fun t (s : Nat) => (.ok t, s + 1)) ⟨20⟩).map (· 0) =
    some (.ok 2, 1) := by decide +kernel
example : (accept (fun n : Nat => (n : Int) * 10) [1, 2, 3] (fun t (s : Nat) => (.ok t, s + 1)) ⟨25⟩).map (· 0) =
    some (.abort, 0) := by decide +kernel

/-- C73 is false: `accept` takes the visitor by const reference, but calls a non-const call operator. A visitor
that changes its state is changed, and if it was defined const the behaviour is undefined. -/
theorem C73_refuted [DecidableEq α] (code : T → Int) (ts : List T) (hd : (ts.map code).Nodup) (hn : ts.length ≤ 16)
    (t : T) (ht : t ∈ ts) (call : T → α → Res ρ × α) (s : α) (hs : (call t s).2 ≠ s) :
    (∃ f, acceptObj code ts call false ⟨code t⟩ = some f ∧ (f s).2 ≠ s) ∧
    ∃ f, acceptObj code ts call true ⟨code t⟩ = some f ∧ f s = (.ub .constModified, s) := by
  refine ⟨⟨_, (C58_accept code ts hd hn _ ⟨code t⟩).1 t ht rfl, ?_⟩, ⟨_, (C58_accept code ts hd hn _ ⟨code t⟩).1 t ht rfl, ?_⟩⟩
  · simpa using hs
  · simp [hs]

/-- C73 holds for visitors whose call operator does not change them, in particular for all const ones. -/
theorem C73_const_partial [DecidableEq α] (code : T → Int) (ts : List T) (call : T → α → Res ρ × α) (hc : ∀ t s, (call t s).2 = s)
    (k : Bool) (x : CV) (f : α → Res ρ × α) (hf : acceptObj code ts call k x = some f) (s : α) :
    (f s).2 = s ∧ (∀ u, (f s).1 = .ub u → ∃ t ∈ ts, (call t s).1 = .ub u) := by
  have hwf := (C58_wellFormed code ts _ x).1 (by rw [← Option.isSome_iff_exists.2 ⟨f, hf⟩]; rfl)
  by_cases h : ∃ t ∈ ts, code t = x.code
  · obtain ⟨t, ht, e⟩ := h
    have := (C58_accept code ts hwf.2 hwf.1 (fun t s => let r := call t s; if k ∧ r.2 ≠ s then (.ub .constModified, s) else r) x).1 t ht e
    rw [acceptObj, this] at hf
    cases hf
    simp only [hc, ne_eq, not_true_eq_false, and_false, if_false, true_and]
    exact fun u hu => ⟨t, ht, hu⟩
  · have := (C58_accept code ts hwf.2 hwf.1 (fun t s => let r := call t s; if k ∧ r.2 ≠ s then (.ub .constModified, s) else r) x).2
      (fun t ht e => h ⟨t, ht, e⟩)
    rw [acceptObj, this] at hf
    cases hf
    simp

end Helper.Variant
