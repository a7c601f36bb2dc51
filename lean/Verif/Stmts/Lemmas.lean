import Verif.Stmts.Model
/-!
# Reading statements
-/
set_option linter.unusedSectionVars false
namespace Helper.Stmts

/-! ## The grammar of statements -/

mutual
/-- The text of a statement. -/
def S.toks : S → List Tok
  | .empty => [.semi]
  | .act a => [.act a]
  | .decl i => [.decl i]
  | .block l => .lb :: (l.toks ++ [.rb])
  | .ifThen c t => .if_ c :: t.toks
  | .ifElse c t e => .if_ c :: (t.toks ++ .else_ :: e.toks)
def Ss.toks : Ss → List Tok
  | .nil => []
  | .cons s l => s.toks ++ l.toks
end

/-- The statement ends with an `if` that an `else` after it would belong to. -/
def S.opens : S → Bool
  | .ifThen _ _ => true
  | .ifElse _ _ e => e.opens
  | _ => false

mutual
/-- Every `else` belongs to the nearest `if`. -/
def S.nice : S → Bool
  | .block l => l.nice
  | .ifThen _ t => t.nice
  | .ifElse _ t e => t.nice && !t.opens && e.nice
  | _ => true
def Ss.nice : Ss → Bool
  | .nil => true
  | .cons s l => s.nice && l.nice
end

mutual
def S.depth : S → Nat
  | .block l => l.depth + 1
  | .ifThen _ t => t.depth + 1
  | .ifElse _ t e => max t.depth e.depth + 1
  | _ => 1
def Ss.depth : Ss → Nat
  | .nil => 1
  | .cons s l => max s.depth l.depth + 1
end

/-- The text does not start with `else`. -/
def NoElse (r : List Tok) : Prop := ∀ r', r ≠ .else_ :: r'

theorem S.toks_ne : ∀ s : S, ∃ a r, s.toks = a :: r ∧ a ≠ .rb ∧ a ≠ .else_
  | .empty => ⟨_, _, rfl, by simp, by simp⟩
  | .act _ => ⟨_, _, rfl, by simp, by simp⟩
  | .decl _ => ⟨_, _, rfl, by simp, by simp⟩
  | .block _ => ⟨_, _, rfl, by simp, by simp⟩
  | .ifThen _ _ => ⟨_, _, rfl, by simp, by simp⟩
  | .ifElse _ _ _ => ⟨_, _, rfl, by simp, by simp⟩

theorem noElse_ss (l : Ss) (r : List Tok) : NoElse (l.toks ++ .rb :: r) := by
  intro r' h
  cases l with
  | nil => simp [Ss.toks] at h
  | cons s l =>
    obtain ⟨a, t, e, _, h2⟩ := s.toks_ne
    rw [Ss.toks, e] at h
    exact h2 (by injection h)

theorem parseS_if_open {n : Nat} {c : Cond} {r : List Tok} {t : S} {r' : List Tok} (h : parseS n r = some (t, r')) (hr : NoElse r') :
    parseS (n + 1) (.if_ c :: r) = some (.ifThen c t, r') := by
  rw [parseS]
  simp only [h]
  cases r' with
  | nil => rfl
  | cons a r'' =>
    cases a with
    | else_ => exact absurd rfl (hr r'')
    | _ => rfl

theorem parseSs_cons {n : Nat} {ts : List Tok} (h : ∀ r, ts ≠ .rb :: r) : parseSs (n + 1) ts =
    match parseS n ts with
      | some (s, r) =>
        match parseSs n r with
        | some (l, r') => some (.cons s l, r')
        | none => none
      | none => none := by
  rw [parseSs]
  · rfl
  · exact h

mutual
/-- A text of the grammar is read as the statement it is the text of. -/
theorem parseS_toks : ∀ (s : S) (n : Nat) (r : List Tok), s.nice = true → s.depth ≤ n → (s.opens = true → NoElse r) →
    parseS n (s.toks ++ r) = some (s, r)
  | _, 0, _, _, hd, _ => by
    exfalso
    rename_i s _ _ _
    cases s <;> simp [S.depth] at hd
  | .empty, n + 1, r, _, _, _ => by simp [S.toks, parseS]
  | .act a, n + 1, r, _, _, _ => by simp [S.toks, parseS]
  | .decl i, n + 1, r, _, _, _ => by simp [S.toks, parseS]
  | .block l, n + 1, r, hn, hd, _ => by
    have := parseSs_toks l n r hn (by simp only [S.depth] at hd; omega)
    simp [S.toks, parseS, this]
  | .ifThen c t, n + 1, r, hn, hd, ho => by
    have := parseS_toks t n r hn (by simp only [S.depth] at hd; omega) (fun _ => ho rfl)
    simp only [S.toks, List.cons_append]
    exact parseS_if_open this (ho rfl)
  | .ifElse c t e, n + 1, r, hn, hd, ho => by
    simp only [S.nice, Bool.and_eq_true, Bool.not_eq_true'] at hn
    simp only [S.depth] at hd
    have h1 := parseS_toks t n (.else_ :: (e.toks ++ r)) hn.1.1 (by omega) (fun h => absurd h (by simp [hn.1.2]))
    have h2 := parseS_toks e n r hn.2 (by omega) ho
    simp [S.toks, parseS, h1, h2]
theorem parseSs_toks : ∀ (l : Ss) (n : Nat) (r : List Tok), l.nice = true → l.depth ≤ n →
    parseSs n (l.toks ++ .rb :: r) = some (l, r)
  | .nil, 0, _, _, hd => by simp [Ss.depth] at hd
  | .cons _ _, 0, _, _, hd => by simp [Ss.depth] at hd
  | .nil, n + 1, r, _, _ => by simp [Ss.toks, parseSs]
  | .cons s l, n + 1, r, hn, hd => by
    simp only [Ss.nice, Bool.and_eq_true] at hn
    simp only [Ss.depth] at hd
    have h1 := parseS_toks s n (l.toks ++ .rb :: r) hn.1 (by omega) (fun _ => noElse_ss l r)
    have h2 := parseSs_toks l n r hn.2 (by omega)
    rw [Ss.toks, List.append_assoc, parseSs_cons]
    · rw [h1]; simp only; rw [h2]
    · intro r' h
      obtain ⟨a, t, e, ha, _⟩ := s.toks_ne
      rw [e] at h
      exact ha (by injection h)
end

mutual
/-- And nothing else is read. -/
theorem parseS_sound : ∀ (n : Nat) (ts : List Tok) (s : S) (r : List Tok), parseS n ts = some (s, r) →
    ts = s.toks ++ r ∧ s.nice = true ∧ (s.opens = true → NoElse r)
  | 0, _, _, _, h => by rw [parseS] at h; cases h
  | n + 1, [], _, _, h => by simp [parseS] at h
  | n + 1, .semi :: r, s, r', h => by
    simp only [parseS, Option.some.injEq, Prod.mk.injEq] at h
    rw [← h.1, ← h.2]; exact ⟨rfl, rfl, fun h => by cases h⟩
  | n + 1, .act a :: r, s, r', h => by
    simp only [parseS, Option.some.injEq, Prod.mk.injEq] at h
    rw [← h.1, ← h.2]; exact ⟨rfl, rfl, fun h => by cases h⟩
  | n + 1, .decl i :: r, s, r', h => by
    simp only [parseS, Option.some.injEq, Prod.mk.injEq] at h
    rw [← h.1, ← h.2]; exact ⟨rfl, rfl, fun h => by cases h⟩
  | n + 1, .rb :: r, s, r', h => by simp [parseS] at h
  | n + 1, .else_ :: r, s, r', h => by simp [parseS] at h
  | n + 1, .lb :: r, s, r', h => by
    simp only [parseS] at h
    cases hp : parseSs n r with
    | none => rw [hp] at h; cases h
    | some x =>
      obtain ⟨l, q⟩ := x
      rw [hp] at h
      simp only [Option.some.injEq, Prod.mk.injEq] at h
      obtain ⟨e, hn⟩ := parseSs_sound n r l q hp
      rw [← h.1, ← h.2, e]
      exact ⟨by simp [S.toks], hn, fun h => by cases h⟩
  | n + 1, .if_ c :: r, s, r', h => by
    cases hp : parseS n r with
    | none => simp [parseS, hp] at h
    | some x =>
      obtain ⟨t, q⟩ := x
      obtain ⟨e, hn, ho⟩ := parseS_sound n r t q hp
      by_cases hq : NoElse q
      · rw [parseS_if_open hp hq] at h
        simp only [Option.some.injEq, Prod.mk.injEq] at h
        rw [← h.1, ← h.2, e]
        exact ⟨rfl, hn, fun _ => hq⟩
      · have : ∃ q', q = .else_ :: q' := Classical.byContradiction fun hc => hq fun r' h' => hc ⟨r', h'⟩
        obtain ⟨q', eq⟩ := this
        rw [eq] at hp e
        simp only [parseS, hp] at h
        cases hp' : parseS n q' with
        | none => rw [hp'] at h; cases h
        | some y =>
          obtain ⟨e2, q2⟩ := y
          rw [hp'] at h
          simp only [Option.some.injEq, Prod.mk.injEq] at h
          obtain ⟨e', hn', ho'⟩ := parseS_sound n q' e2 q2 hp'
          rw [← h.1, ← h.2, e, e']
          refine ⟨by simp [S.toks], ?_, ho'⟩
          have : t.opens = false := by
            cases hto : t.opens with
            | false => rfl
            | true => exact absurd eq (by rw [eq]; exact fun _ => (by rw [eq] at ho; exact absurd rfl (ho hto q')))
          simp [S.nice, hn, hn', this]
theorem parseSs_sound : ∀ (n : Nat) (ts : List Tok) (l : Ss) (r : List Tok), parseSs n ts = some (l, r) →
    ts = l.toks ++ .rb :: r ∧ l.nice = true
  | 0, _, _, _, h => by rw [parseSs] at h; cases h
  | n + 1, ts, l, r, h => by
    by_cases hrb : ∃ r', ts = .rb :: r'
    · obtain ⟨r', e⟩ := hrb
      rw [e] at h
      simp only [parseSs, Option.some.injEq, Prod.mk.injEq] at h
      rw [e, ← h.1, ← h.2]
      exact ⟨rfl, rfl⟩
    · rw [parseSs_cons (fun r' h' => hrb ⟨r', h'⟩)] at h
      cases hp : parseS n ts with
      | none => rw [hp] at h; cases h
      | some x =>
        obtain ⟨s, q⟩ := x
        rw [hp] at h
        simp only at h
        cases hp' : parseSs n q with
        | none => rw [hp'] at h; cases h
        | some y =>
          obtain ⟨l', q'⟩ := y
          rw [hp'] at h
          simp only [Option.some.injEq, Prod.mk.injEq] at h
          obtain ⟨e, hn, _⟩ := parseS_sound n ts s q hp
          obtain ⟨e', hn'⟩ := parseSs_sound n q l' q' hp'
          rw [← h.1, ← h.2, e, e']
          exact ⟨by simp [Ss.toks], by simp [Ss.nice, hn, hn']⟩
end

mutual
theorem S.depth_le : ∀ s : S, s.depth ≤ s.toks.length
  | .empty | .act _ | .decl _ => by simp [S.depth, S.toks]
  | .block l => by have := l.depth_le; simp only [S.depth, S.toks, List.length_cons, List.length_append, List.length_nil]; omega
  | .ifThen c t => by have := t.depth_le; simp only [S.depth, S.toks, List.length_cons]; omega
  | .ifElse c t e => by
    have := t.depth_le; have := e.depth_le
    simp only [S.depth, S.toks, List.length_cons, List.length_append]; omega
theorem Ss.depth_le : ∀ l : Ss, l.depth ≤ l.toks.length + 1
  | .nil => by simp [Ss.depth, Ss.toks]
  | .cons s l => by
    have := s.depth_le; have := l.depth_le
    have : 1 ≤ s.toks.length := by obtain ⟨a, r, e, _⟩ := s.toks_ne; rw [e]; simp
    simp only [Ss.depth, Ss.toks, List.length_append]; omega
end

/-- A body is read as the one list of statements of the grammar with that text. -/
theorem parseBody_iff (ts : List Tok) (l : Ss) : parseBody ts = some l ↔ l.nice = true ∧ l.toks = ts := by
  constructor
  · intro h
    rw [parseBody] at h
    split at h
    · rename_i l' hp
      cases h
      obtain ⟨e, hn⟩ := parseSs_sound _ _ _ _ hp
      exact ⟨hn, (List.append_cancel_right e).symm⟩
    · cases h
  · rintro ⟨hn, rfl⟩
    rw [parseBody, parseSs_toks l _ [] hn (by have := l.depth_le; omega)]

end Helper.Stmts
