import Verif.LRU.Memo
/-!
# C130: a recursive function memoised through an `LRUCache`

The client is `V const& memo(L x) { if (not cache.has_label(x)) cache.put(x,body(x)); return cache.get(x); }`, where `body` calls `memo` again. The
references that `memo` returns refer into the cache (lru_cache.hpp:68), and the calls made by `body` can evict what they refer to.
-/
set_option linter.unusedSectionVars false
namespace Helper.LRU.Recursive
open Helper.LRU

variable {L : Type u} {V : Type v} [Cmp L]

/-! ## The client program -/

/-- The body of the function for one argument: `ask x` is `V const& r = memo(x)`, which declares a new reference; `look i` uses the value of the
reference declared last but `i`. Exceptions are not caught. -/
inductive Body (L : Type u) (V : Type v) where
  | ret (v : V)
  | raise (e : Exn)
  | ask (x : L) (next : Body L V)
  | look (i : Nat) (next : V → Body L V)

/-- The outcome of a call: its result, the cache, and the labels for which the body was run, in the order in which these runs
ended. -/
abbrev Outcome (L : Type u) (V : Type v) (A : Type w) := Res A × Cache L V × List L

/-- Runs a body; `rs` are the references declared so far, newest first (as nodes of the map), `memo` the memoised function. `none`: `memo` does not
return, or a reference is used that has not been declared (which does not compile). -/
def runBody (memo : Cache L V → L → Option (Outcome L V Nat)) : Body L V → List Nat → Cache L V → Option (Outcome L V V)
  | .ret v, _, c => some (.ok v, c, [])
  | .raise e, _, c => some (.exn e, c, [])
  | .ask x b, rs, c =>
    match memo c x with
    | none => none
    | some (.ok r, c', ev) => (runBody memo b (r :: rs) c').map fun q => (q.1, q.2.1, ev ++ q.2.2)
    | some (.exn e, c', ev) => some (.exn e, c', ev)
    | some (.ub k, c', ev) => some (.ub k, c', ev)
    | some (.abort, c', ev) => some (.abort, c', ev)
  | .look i k, rs, c =>
    match rs[i]? with
    | none => none
    | some r =>
      match readRef c r with
      | .ok v => runBody memo (k v) rs c
      | .exn e => some (.exn e, c, [])
      | .ub u => some (.ub u, c, [])
      | .abort => some (.abort, c, [])

/-- `return cache.get(x)` (lru_cache.hpp:60-69). -/
def fetch (c : Cache L V) (x : L) (ev : List L) : Outcome L V Nat :=
  match get c x with
  | (.ok q, c') => (.ok q.2, c', ev)
  | (.exn e, c') => (.exn e, c', ev)
  | (.ub k, c') => (.ub k, c', ev)
  | (.abort, c') => (.abort, c', ev)

/-- The memoised function, `none` if the recursion is deeper than `fuel`. -/
def memo (body : L → Body L V) : Nat → Cache L V → L → Option (Outcome L V Nat)
  | 0, _, _ => none
  | fuel + 1, c, x =>
    if hasLabel c x then some (fetch c x [])
    else
      match runBody (memo body fuel) (body x) [] c with
      | none => none
      | some (.ok v, c', ev) =>
        match put c' x (.ext v) none with
        | (.ok _, c'') => some (fetch c'' x (ev ++ [x]))
        | (.exn e, c'') => some (.exn e, c'', ev ++ [x])
        | (.ub k, c'') => some (.ub k, c'', ev ++ [x])
        | (.abort, c'') => some (.abort, c'', ev ++ [x])
      | some (.exn e, c', ev) => some (.exn e, c', ev ++ [x])
      | some (.ub k, c', ev) => some (.ub k, c', ev ++ [x])
      | some (.abort, c', ev) => some (.abort, c', ev ++ [x])

/-! ## Specification -/

/-- What a body computes when `memo(x)` is the function `f` itself and references are values. -/
def eval (f : L → Except Exn V) : Body L V → List V → Option (Except Exn V)
  | .ret v, _ => some (.ok v)
  | .raise e, _ => some (.error e)
  | .ask x b, vs =>
    match f x with
    | .ok v => eval f b (v :: vs)
    | .error e => some (.error e)
  | .look i k, vs =>
    match vs[i]? with
    | none => none
    | some v => eval f (k v) vs

/-- The arguments for which a body calls the function. -/
def asks (f : L → Except Exn V) : Body L V → List V → List L
  | .ret _, _ => []
  | .raise _, _ => []
  | .ask x b, vs =>
    x :: match f x with
      | .ok v => asks f b (v :: vs)
      | .error _ => []
  | .look i k, vs =>
    match vs[i]? with
    | none => []
    | some v => asks f (k v) vs

/-- `f` is the function defined by the recursion `body`, which terminates: the rank of the arguments decreases. Equivalent labels have equal values. -/
structure Defines (f : L → Except Exn V) (body : L → Body L V) (rank : L → Nat) : Prop where
  value : ∀ x, eval f (body x) [] = some (f x)
  less : ∀ x, ∀ y ∈ asks f (body x) [], rank y < rank x
  equiv : ∀ x y, Cmp.equiv x y = true → f x = f y ∧ rank x = rank y

/-- A reference is used only until the next call of the memoised function; `live` says whether the newest one may be used. -/
def Prompt : Bool → Body L V → Prop
  | _, .ret _ => True
  | _, .raise _ => True
  | _, .ask _ b => Prompt true b
  | live, .look i k => live = true ∧ i = 0 ∧ ∀ v, Prompt true (k v)

/-- A set of labels that is closed under the recursion. -/
def Closed (f : L → Except Exn V) (body : L → Body L V) (S : List L) : Prop :=
  ∀ x, occurs x S = true → ∀ y ∈ asks f (body x) [], occurs y S = true

/-! ## Caches whose values are right -/

variable [StrictWeak L]

/-- A cache of maximum size `n` that holds values of `f`. -/
structure Right (f : L → Except Exn V) (n : Nat) (c : Cache L V) : Prop where
  rep : ∃ s, Rep c s
  max : c.maximumSize = n
  vals : ∀ e ∈ c.elements, f e.1 = .ok e.2.value

variable {f : L → Except Exn V} {body : L → Body L V} {rank : L → Nat} {n : Nat} {c : Cache L V}

theorem right_empty (hn : 0 < n) : Right f n (empty n : Cache L V) := ⟨⟨_, rep_empty hn⟩, rfl, by simp [empty]⟩

/-- What `c'` has over `c` when nothing is evicted: `ev` are the new labels. -/
structure Grown (c c' : Cache L V) (ev : List L) : Prop where
  keeps : ∀ r v, readRef c r = .ok v → readRef c' r = .ok v
  has : ∀ x, hasLabel c' x = true ↔ hasLabel c x = true ∨ occurs x ev = true
  new : ∀ x ∈ ev, hasLabel c x = false
  distinct : Distinct ev

theorem Grown.refl (c : Cache L V) : Grown c c [] :=
  ⟨fun _ _ h => h, fun x => by simp [occurs], by simp, List.Pairwise.nil⟩

theorem Grown.trans {c c' c'' : Cache L V} {a b : List L} (h : Grown c c' a) (h' : Grown c' c'' b) : Grown c c'' (a ++ b) := by
  refine ⟨fun r v e => h'.keeps r v (h.keeps r v e), fun x => ?_, fun x hx => ?_, ?_⟩
  · rw [h'.has, h.has]
    simp only [occurs, List.any_append, Bool.or_eq_true]
    exact ⟨fun h => by rcases h with (h | h) | h <;> simp [h], fun h => by rcases h with h | h | h <;> simp [h]⟩
  · rcases List.mem_append.1 hx with hx | hx
    · exact h.new x hx
    · have := h'.new x hx
      cases hc : hasLabel c x with
      | false => rfl
      | true => rw [(h.has x).2 (.inl hc)] at this; cases this
  · unfold Distinct
    rw [List.pairwise_append]
    refine ⟨h.distinct, h'.distinct, fun x hx y hy => ?_⟩
    have h1 := h'.new y hy
    cases hxy : Cmp.equiv x y with
    | false => rfl
    | true =>
      rw [(h.has y).2 (.inr (occurs_iff.2 ⟨x, hx, hxy⟩))] at h1
      cases h1

/-- `get` of a label that is there. -/
theorem fetch_right (h : Right f n c) {x : L} (hf : ∀ y, Cmp.equiv x y = true → f x = f y) (hx : hasLabel c x = true) (ev : List L) :
    ∃ r c' v, fetch c x ev = (.ok r, c', ev) ∧ Right f n c' ∧ f x = .ok v ∧ readRef c' r = .ok v ∧ Grown c c' [] := by
  obtain ⟨s, hs⟩ := h.rep
  have hst := get_nodeStep c x
  rcases get_refine hs x with ⟨v, r, h1, _, h3⟩ | ⟨h1, _, h3⟩
  · have hg : get c x = (.ok (v, r), (get c x).2) := Prod.ext h1 rfl
    obtain ⟨e, he, hex, her, hev⟩ := get_ok hg
    have hold : ∀ e' ∈ (get c x).2.elements, ∃ e ∈ c.elements, e.2.node = e'.2.node ∧ e.1 = e'.1 ∧ e.2.value = e'.2.value := by
      intro e' he'
      unfold get at he'
      cases hf : OMap.find x c.elements with
      | none => rw [hf] at he'; exact ⟨e', he', rfl, rfl, rfl⟩
      | some e0 =>
        rw [hf] at he'
        simp only [resetAge, bumpYounger, List.map_map, List.mem_map] at he'
        obtain ⟨z, hz, rfl⟩ := he'
        refine ⟨z, hz, ?_⟩
        simp only [Function.comp]
        split <;> split <;> exact ⟨rfl, rfl, rfl⟩
    have hkeys : ∀ y, hasLabel (get c x).2 y = hasLabel c y := by
      intro y
      unfold get
      cases hf : OMap.find x c.elements with
      | none => rfl
      | some e0 =>
        simp only
        rw [Bool.eq_iff_iff]
        have hk := resetAge_bump_keys e0.2.node e0.2.age c.elements
        have aux : ∀ es : List (L × Entry V), (∃ e ∈ es, Cmp.equiv e.1 y = true) ↔ ∃ l ∈ es.map Prod.fst, Cmp.equiv l y = true := by
          intro es; simp [List.mem_map]
        unfold hasLabel
        rw [OMap.find_isSome, OMap.find_isSome, aux, aux, hk]
    refine ⟨r, (get c x).2, v, ?_, ⟨⟨_, h3⟩, ?_, ?_⟩, ?_, ?_, ?_, ?_, by simp, .nil⟩
    · unfold fetch; rw [hg]
    · rw [← h.max]; unfold get; cases OMap.find x c.elements <;> rfl
    · intro e' he'
      obtain ⟨e1, he1, _, h2, h4⟩ := hold e' he'
      rw [← h2, ← h4]; exact h.vals e1 he1
    · obtain ⟨e1, he1, _, h2, h4⟩ := hold e he
      rw [hf e.1 (by rw [Cmp.equiv_comm]; exact hex), ← hev, ← h2, ← h4]
      exact h.vals e1 he1
    · rw [readRef_ok h3]; exact ⟨e, he, her, hev⟩
    · intro r v hr
      rw [readRef_ok hs] at hr
      rw [readRef_ok h3]
      obtain ⟨e1, he1, hr1, hv1⟩ := hr
      obtain ⟨e2, he2, g1, _, g3⟩ := hst.kept e1 he1 (by rw [hkeys]; exact hasLabel_of_mem he1)
      exact ⟨e2, he2, by omega, by rw [← g3]; exact hv1⟩
    · intro y; rw [hkeys]; simp [occurs]
  · exfalso
    have := call_refine hs (.get x)
    obtain ⟨p, _, _, h5, _⟩ := Spec.get_hit (s := s) (x := x) (by rw [← hs.has_eq]; exact hx)
    rw [h3] at h5; cases h5

/-- `put` of a new label. -/
theorem put_right (h : Right f n c) {x : L} {v : V} (hx : hasLabel c x = false) (hv : f x = .ok v) :
    ∃ c', put c x (.ext v) none = (.ok (), c') ∧ Right f n c' ∧ hasLabel c' x = true ∧
      (∀ y, hasLabel c' y = true → hasLabel c y = true ∨ Cmp.equiv x y = true) ∧
      (c.elements.length < n → Grown c c' [x]) := by
  obtain ⟨s, hs⟩ := h.rep
  have hno : ∀ e ∈ c.elements, Cmp.equiv e.1 x = false := by
    intro e he
    cases hq : Cmp.equiv e.1 x with
    | false => rfl
    | true =>
      have := hasLabel_of_mem he
      rw [hasLabel_congr c hq, hx] at this; cases this
  have hst := put_nodeStep hs x v
  rcases put_refine hs x v with ⟨c', h1, _, h3, _⟩ | ⟨_, _, h3⟩
  · rw [h1] at hst
    have hmem : ∀ e' ∈ c'.elements, e' = (x, ⟨0, v, c.nextNode⟩) ∨ ∃ e ∈ c.elements, e.1 = e'.1 ∧ e.2.value = e'.2.value := by
      intro e' he'
      unfold put at h1
      rw [hx] at h1
      obtain ⟨es, hes, hr⟩ := makeRoom_room hs
      simp only [Bool.false_eq_true, if_false, hes, Arg.read, Prod.mk.injEq, true_and] at h1
      rw [← h1] at he'
      have hno' : ∀ e ∈ es, Cmp.equiv e.1 x = false := by
        intro e he
        obtain ⟨e', he', hl, _⟩ := hr.sub e he
        rw [← hl]; exact hno e' he'
      have hperm := OMap.insert_perm (v := (⟨0, v, c.nextNode⟩ : Entry V)) hno'
      rcases List.mem_cons.1 (hperm.mem_iff.1 he') with h | h
      · exact .inl h
      · obtain ⟨e1, he1, g1, g2, _⟩ := hr.sub e' h
        exact .inr ⟨e1, he1, g1, g2⟩
    have hsome : hasLabel c' x = true := by rw [h3.has_eq]; simp [Spec.has]
    have hsub : ∀ y, hasLabel c' y = true → hasLabel c y = true ∨ Cmp.equiv x y = true := by
      intro y hy
      obtain ⟨e, he, hey⟩ := hasLabel_true hy
      rcases hmem e he with rfl | ⟨e1, he1, g1, _⟩
      · exact .inr hey
      · left
        rw [← hasLabel_congr c (a := e1.1) (by rw [g1]; exact hey)]
        exact hasLabel_of_mem he1
    have hmax : c'.maximumSize = n := by rw [h3.max, ← h.max, hs.max]
    refine ⟨c', h1, ⟨⟨_, h3⟩, hmax, ?_⟩, hsome, hsub, fun hlt => ?_⟩
    · intro e he
      rcases hmem e he with rfl | ⟨e1, he1, g1, g2⟩
      · exact hv
      · rw [← g1, ← g2]; exact h.vals e1 he1
    · have hall : ∀ y, hasLabel c y = true → hasLabel c' y = true := by
        intro y hy
        rw [h3.has_eq]
        rw [hs.has_eq] at hy
        have hlen : s.items.take (s.cap - 1) = s.items := by
          apply List.take_of_length_le
          have := hs.length_eq; have := hs.max; have := h.max
          omega
        simp only [Spec.has, hlen, List.any_cons, Bool.or_eq_true] at hy ⊢
        exact .inr hy
      refine ⟨?_, fun y => ⟨fun hy => ?_, fun hy => ?_⟩, ?_, by simp [Distinct]⟩
      · intro r w hr
        rw [readRef_ok hs] at hr
        rw [readRef_ok h3]
        obtain ⟨e1, he1, hr1, hv1⟩ := hr
        obtain ⟨e2, he2, g1, _, g3⟩ := hst.kept e1 he1 (hall _ (hasLabel_of_mem he1))
        exact ⟨e2, he2, by omega, by rw [← g3]; exact hv1⟩
      · rcases hsub y hy with h | h
        · exact .inl h
        · exact .inr (occurs_iff.2 ⟨x, by simp, h⟩)
      · rcases hy with h | h
        · exact hall y h
        · obtain ⟨z, hz, hzy⟩ := occurs_iff.1 h
          rw [List.mem_singleton] at hz; subst hz
          rw [← hasLabel_congr c' hzy]; exact hsome
      · intro y hy; rw [List.mem_singleton] at hy; subst hy; exact hx
  · rw [← hs.has_eq, hx] at h3; cases h3

/-! ## The recursion -/

/-- Labels that are new and different. -/
structure Fresh (c : Cache L V) (ev : List L) : Prop where
  new : ∀ x ∈ ev, hasLabel c x = false
  distinct : Distinct ev

theorem Grown.fresh {c c' : Cache L V} {ev : List L} (h : Grown c c' ev) : Fresh c ev := ⟨h.new, h.distinct⟩

theorem Grown.andFresh {c c' : Cache L V} {a b : List L} (h : Grown c c' a) (h' : Fresh c' b) : Fresh c (a ++ b) := by
  refine ⟨fun x hx => ?_, ?_⟩
  · rcases List.mem_append.1 hx with hx | hx
    · exact h.new x hx
    · have := h'.new x hx
      cases hc : hasLabel c x with
      | false => rfl
      | true => rw [(h.has x).2 (.inl hc)] at this; cases this
  · unfold Distinct
    rw [List.pairwise_append]
    refine ⟨h.distinct, h'.distinct, fun x hx y hy => ?_⟩
    have h1 := h'.new y hy
    cases hxy : Cmp.equiv x y with
    | false => rfl
    | true =>
      rw [(h.has y).2 (.inr (occurs_iff.2 ⟨x, hx, hxy⟩))] at h1
      cases h1

/-- What holds after a call that adds only labels of rank below `k`. `G` is the assumption that all labels are in `S`. -/
structure After (f : L → Except Exn V) (n : Nat) (rank : L → Nat) (G : Prop) (S : List L) (k : Nat) (c c' : Cache L V) (ev : List L) : Prop where
  right : Right f n c'
  bound : ∀ y, hasLabel c' y = true → hasLabel c y = true ∨ rank y < k
  small : G → ∀ y, hasLabel c' y = true → occurs y S = true
  ranks : ∀ y ∈ ev, rank y < k
  inside : G → ∀ y ∈ ev, occurs y S = true
  fresh : G → Fresh c ev

/-- What is to be shown of the memoised function for the arguments of rank below `k`. -/
def Works (f : L → Except Exn V) (n : Nat) (rank : L → Nat) (G : Prop) (S : List L) (k : Nat) (m : Cache L V → L → Option (Outcome L V Nat)) : Prop :=
  ∀ x, rank x < k → (G → occurs x S = true) → ∀ c, Right f n c → (G → ∀ y, hasLabel c y = true → occurs y S = true) →
    ∃ res c' ev, m c x = some (res, c', ev) ∧ After f n rank G S (rank x + 1) c c' ev ∧
      (∀ v, f x = .ok v → ∃ r, res = .ok r ∧ readRef c' r = .ok v ∧ (G → Grown c c' ev)) ∧ ∀ e, f x = .error e → res = .exn e

theorem runBody_works {G : Prop} {S : List L} {k : Nat} {m : Cache L V → L → Option (Outcome L V Nat)} (hm : Works f n rank G S k m) :
    ∀ (b : Body L V) (live : Bool) (rs : List Nat) (vs : List V) (c : Cache L V) (out : Except Exn V), G ∨ Prompt live b → Right f n c →
      (G → ∀ y, hasLabel c y = true → occurs y S = true) → (∀ y ∈ asks f b vs, rank y < k ∧ (G → occurs y S = true)) →
      (∀ (i : Nat) v, vs[i]? = some v → ∃ r, rs[i]? = some r ∧ (G ∨ live = true ∧ i = 0 → readRef c r = .ok v)) → eval f b vs = some out →
      ∃ res c' ev, runBody m b rs c = some (res, c', ev) ∧ After f n rank G S k c c' ev ∧
        (∀ v, out = .ok v → res = .ok v ∧ (G → Grown c c' ev)) ∧ ∀ e, out = .error e → res = .exn e := by
  intro b
  induction b with
  | ret v =>
    intro live rs vs c out _ hr hS _ _ he
    cases he
    refine ⟨_, _, _, rfl, ⟨hr, fun _ h => .inl h, hS, by simp, by simp, fun _ => (Grown.refl c).fresh⟩, ?_, ?_⟩
    · intro w hw; cases hw; exact ⟨rfl, fun _ => Grown.refl c⟩
    · intro e h; cases h
  | raise e =>
    intro live rs vs c out _ hr hS _ _ he
    cases he
    refine ⟨_, _, _, rfl, ⟨hr, fun _ h => .inl h, hS, by simp, by simp, fun _ => (Grown.refl c).fresh⟩, ?_, ?_⟩
    · intro w hw; cases hw
    · intro e h; cases h; rfl
  | ask x b ih =>
    intro live rs vs c out hp hr hS ha hl he
    have hx := ha x (by simp [asks])
    obtain ⟨res, c1, ev, h1, h2, h3, h4⟩ := hm x hx.1 hx.2 c hr hS
    cases hf : f x with
    | error e =>
      have hres := h4 e hf
      subst hres
      have hout : out = .error e := by simp only [eval, hf, Option.some.injEq] at he; exact he.symm
      subst hout
      refine ⟨.exn e, c1, ev, by simp only [runBody, h1], ⟨h2.right, fun y hy => ?_, h2.small, fun y hy => ?_, h2.inside, h2.fresh⟩, ?_, ?_⟩
      · rcases h2.bound y hy with h | h
        · exact .inl h
        · exact .inr (by omega)
      · have := h2.ranks y hy; omega
      · intro w hw; cases hw
      · intro e h; cases h; rfl
    | ok v =>
      obtain ⟨r, hres, hread, hgrow⟩ := h3 v hf
      subst hres
      have hasks : asks f (.ask x b) vs = x :: asks f b (v :: vs) := by simp only [asks, hf]
      have heval : eval f (.ask x b) vs = eval f b (v :: vs) := by simp only [eval, hf]
      obtain ⟨res', c2, ev', g1, g2, g3, g4⟩ := ih true (r :: rs) (v :: vs) c1 out (hp.imp_right fun h => h) h2.right h2.small
        (fun y hy => ha y (by rw [hasks]; exact List.mem_cons_of_mem _ hy))
        (by
          intro i w hw
          cases i with
          | zero =>
            simp only [List.getElem?_cons_zero, Option.some.injEq] at hw ⊢
            subst hw
            exact ⟨r, rfl, fun _ => hread⟩
          | succ i =>
            simp only [List.getElem?_cons_succ] at hw ⊢
            obtain ⟨r', hr', hrd⟩ := hl i w hw
            refine ⟨r', hr', fun hc => ?_⟩
            rcases hc with hG | ⟨_, hc⟩
            · exact (hgrow hG).keeps _ _ (hrd (.inl hG))
            · cases hc)
        (by rw [← heval]; exact he)
      refine ⟨res', c2, ev ++ ev', by simp only [runBody, h1, g1, Option.map_some], ⟨g2.right, fun y hy => ?_, g2.small, fun y hy => ?_,
        fun hG y hy => ?_, fun hG => (hgrow hG).andFresh (g2.fresh hG)⟩, ?_, g4⟩
      · rcases g2.bound y hy with h | h
        · rcases h2.bound y h with h | h
          · exact .inl h
          · exact .inr (by omega)
        · exact .inr h
      · rcases List.mem_append.1 hy with h | h
        · have := h2.ranks y h; omega
        · exact g2.ranks y h
      · rcases List.mem_append.1 hy with h | h
        · exact h2.inside hG y h
        · exact g2.inside hG y h
      · intro w hw
        exact ⟨(g3 w hw).1, fun hG => (hgrow hG).trans ((g3 w hw).2 hG)⟩
  | look i k ih =>
    intro live rs vs c out hp hr hS ha hl he
    cases hv : vs[i]? with
    | none => simp only [eval, hv] at he; cases he
    | some v =>
      obtain ⟨r, hri, hrd⟩ := hl i v hv
      have hread : readRef c r = .ok v := hrd (hp.imp_right fun h => ⟨h.1, h.2.1⟩)
      have hasks : asks f (.look i k) vs = asks f (k v) vs := by simp only [asks, hv]
      have heval : eval f (.look i k) vs = eval f (k v) vs := by simp only [eval, hv]
      obtain ⟨res, c', ev, g1, g2, g3, g4⟩ := ih v live rs vs c out (hp.imp_right fun h => by have := h.2.2 v; rw [h.1]; exact this) hr hS
        (by rw [← hasks]; exact ha) hl (by rw [← heval]; exact he)
      exact ⟨res, c', ev, by simp only [runBody, hri, hread, g1], g2, g3, g4⟩

theorem sorted_distinct (h : Right f n c) : Distinct (c.elements.map Prod.fst) := by
  obtain ⟨s, hs⟩ := h.rep
  have := hs.sorted
  unfold OMap.Sorted at this
  unfold Distinct
  rw [List.pairwise_map]
  exact this.imp fun hlt => by rw [Cmp.equiv_false_iff]; exact .inl hlt

/-- A cache that holds labels of `S` but not `x` has room for `x`. -/
theorem room (h : Right f n c) {S : List L} (hS : ∀ y, hasLabel c y = true → occurs y S = true) (hn : S.length ≤ n) {x : L} (hx : hasLabel c x = false)
    (hxS : occurs x S = true) : c.elements.length < n := by
  have hd : Distinct (x :: c.elements.map Prod.fst) := by
    refine List.pairwise_cons.2 ⟨fun y hy => ?_, sorted_distinct h⟩
    obtain ⟨e, he, rfl⟩ := List.mem_map.1 hy
    cases hq : Cmp.equiv x e.1 with
    | false => rfl
    | true =>
      have := hasLabel_of_mem he
      rw [← hasLabel_congr c hq, hx] at this; cases this
  have := hd.length_le (Q := S) (by
    intro p hp
    rcases List.mem_cons.1 hp with rfl | hp
    · exact hxS
    · obtain ⟨e, he, rfl⟩ := List.mem_map.1 hp
      exact hS _ (hasLabel_of_mem he))
  simp only [List.length_cons, List.length_map] at this
  omega

theorem memo_works (hd : Defines f body rank) {G : Prop} {S : List L} (hG : G → Closed f body S ∧ S.length ≤ n)
    (hp : G ∨ ∀ x, Prompt false (body x)) : ∀ fuel, Works f n rank G S fuel (memo body fuel) := by
  intro fuel
  induction fuel with
  | zero => intro x hx; omega
  | succ fuel ih =>
    intro x hx hxS c hr hS
    have hcongr := fun y hy => (hd.equiv x y hy).1
    cases hh : hasLabel c x with
    | true =>
      obtain ⟨r, c', v, h1, h2, h3, h4, h5⟩ := fetch_right hr hcongr hh []
      refine ⟨.ok r, c', [], by simp only [memo, hh, if_true, h1], ⟨h2, fun y hy => ?_, fun g y hy => ?_, by simp, by simp, fun _ => h5.fresh⟩, ?_, ?_⟩
      · exact .inl (by simpa [occurs] using (h5.has y).1 hy)
      · exact hS g y (by simpa [occurs] using (h5.has y).1 hy)
      · intro w hw; rw [h3] at hw; cases hw; exact ⟨r, rfl, h4, fun _ => h5⟩
      · intro e he; rw [h3] at he; cases he
    | false =>
      have hw : Works f n rank G S (rank x) (memo body fuel) := by
        intro y hy; exact ih y (by omega)
      obtain ⟨res, c1, ev, g1, g2, g3, g4⟩ := runBody_works hw (body x) false [] [] c (f x) (hp.imp_right fun h => h x) hr hS
        (fun y hy => ⟨hd.less x y hy, fun g => (hG g).1 x (hxS g) y hy⟩) (by intro i v h; simp at h) (hd.value x)
      have hevx : ∀ y ∈ ev, Cmp.equiv y x = false := by
        intro y hy
        cases hq : Cmp.equiv y x with
        | false => rfl
        | true => have h1 := g2.ranks y hy; have h2 := (hd.equiv y x hq).2; omega
      have hfresh : G → Fresh c (ev ++ [x]) := by
        intro g
        have hf := g2.fresh g
        refine ⟨fun y hy => ?_, ?_⟩
        · rcases List.mem_append.1 hy with h | h
          · exact hf.new y h
          · rw [List.mem_singleton] at h; subst h; exact hh
        · unfold Distinct
          rw [List.pairwise_append]
          refine ⟨hf.distinct, by simp, fun y hy z hz => ?_⟩
          rw [List.mem_singleton] at hz; subst hz; exact hevx y hy
      have hranks : ∀ y ∈ ev ++ [x], rank y < rank x + 1 := by
        intro y hy
        rcases List.mem_append.1 hy with h | h
        · have := g2.ranks y h; omega
        · rw [List.mem_singleton] at h; subst h; omega
      have hins : G → ∀ y ∈ ev ++ [x], occurs y S = true := by
        intro g y hy
        rcases List.mem_append.1 hy with h | h
        · exact g2.inside g y h
        · rw [List.mem_singleton] at h; subst h; exact hxS g
      cases hf : f x with
      | error e =>
        have hres := g4 e hf
        subst hres
        refine ⟨.exn e, c1, ev ++ [x], by simp [memo, hh, g1], ⟨g2.right, fun y hy => ?_, g2.small, hranks, hins, hfresh⟩, ?_, ?_⟩
        · exact (g2.bound y hy).imp_right fun h => by omega
        · intro w hw; cases hw
        · intro e' he'; cases he'; rfl
      | ok v =>
        obtain ⟨hres, hgrow⟩ := g3 v hf
        subst hres
        have hx1 : hasLabel c1 x = false := by
          cases hq : hasLabel c1 x with
          | false => rfl
          | true =>
            rcases g2.bound x hq with h | h
            · rw [hh] at h; cases h
            · omega
        obtain ⟨c2, p1, p2, p3, p4, p5⟩ := put_right g2.right hx1 hf
        obtain ⟨r, c3, w, q1, q2, q3, q4, q5⟩ := fetch_right p2 hcongr p3 (ev ++ [x])
        rw [hf] at q3; cases q3
        have hgrow3 : G → Grown c c3 (ev ++ [x]) := by
          intro g
          have h1 := (hgrow g).trans (p5 (room g2.right (g2.small g) (hG g).2 hx1 (hxS g)))
          have h2 := h1.trans q5
          rwa [List.append_nil] at h2
        refine ⟨.ok r, c3, ev ++ [x], by simp [memo, hh, g1, p1, q1], ⟨q2, fun y hy => ?_, fun g y hy => ?_, hranks, hins, hfresh⟩, ?_, ?_⟩
        · rcases p4 y (by simpa [occurs] using (q5.has y).1 hy) with h | h
          · exact (g2.bound y h).imp_right fun h => by omega
          · have := (hd.equiv x y h).2; exact .inr (by omega)
        · rcases p4 y (by simpa [occurs] using (q5.has y).1 hy) with h | h
          · exact g2.small g y h
          · rw [← occurs_congr h]; exact hxS g
        · intro w' hw'; cases hw'; exact ⟨r, rfl, q4, hgrow3⟩
        · intro e he; cases he

/-! ## Theorems -/

/-- A history of calls of the memoised function by the client, oldest first: the results, the last cache, the labels evaluated. Results are copied. -/
def history (body : L → Body L V) (fuel : Nat) : List L → Cache L V → Option (List (Res V) × Cache L V × List L)
  | [], c => some ([], c, [])
  | x :: xs, c =>
    match memo body fuel c x with
    | none => none
    | some (.ok r, c', ev) => (history body fuel xs c').map fun q => (readRef c' r :: q.1, q.2.1, ev ++ q.2.2)
    | some (.exn e, c', ev) => (history body fuel xs c').map fun q => (.exn e :: q.1, q.2.1, ev ++ q.2.2)
    | some (.ub k, c', ev) => some ([.ub k], c', ev)
    | some (.abort, c', ev) => some ([.abort], c', ev)

/-- What the calls should give. -/
def result (f : L → Except Exn V) (x : L) : Res V :=
  match f x with
  | .ok v => .ok v
  | .error e => .exn e

theorem history_works (hd : Defines f body rank) {G : Prop} {S : List L} (hG : G → Closed f body S ∧ S.length ≤ n)
    (hp : G ∨ ∀ x, Prompt false (body x)) {fuel : Nat} : ∀ (xs : List L) (c : Cache L V), Right f n c →
      (G → ∀ y, hasLabel c y = true → occurs y S = true) → (∀ x ∈ xs, rank x < fuel ∧ (G → occurs x S = true)) →
      ∃ c' ev, history body fuel xs c = some (xs.map (result f), c', ev) ∧ Right f n c' ∧
        (G → (∀ x ∈ xs, ∃ v, f x = .ok v) → Grown c c' ev) := by
  intro xs
  induction xs with
  | nil => intro c hr _ _; exact ⟨c, [], rfl, hr, fun _ _ => Grown.refl c⟩
  | cons x xs ih =>
    intro c hr hS hxs
    have hx := hxs x List.mem_cons_self
    obtain ⟨res, c1, ev, h1, h2, h3, h4⟩ := memo_works hd hG hp fuel x hx.1 hx.2 c hr hS
    obtain ⟨c2, ev', g1, g2, g3⟩ := ih c1 h2.right h2.small fun y hy => hxs y (List.mem_cons_of_mem _ hy)
    cases hf : f x with
    | ok v =>
      obtain ⟨r, hres, hrd, hgrow⟩ := h3 v hf
      subst hres
      refine ⟨c2, ev ++ ev', by simp [history, h1, g1, hrd, result, hf], g2, fun g hall => ?_⟩
      exact (hgrow g).trans (g3 g fun y hy => hall y (List.mem_cons_of_mem _ hy))
    | error e =>
      have hres := h4 e hf
      subst hres
      refine ⟨c2, ev ++ ev', by simp [history, h1, g1, result, hf], g2, fun g hall => ?_⟩
      obtain ⟨v, hv⟩ := hall x List.mem_cons_self
      rw [hf] at hv; cases hv

/-- **C130** (partial: references are used only until the next call of the memoised function). Whatever the capacity, the calls return the values of
the function, or throw what it throws; `put` is never called with a label that is there. -/
theorem C130_value_partial (hn : 0 < n) (hd : Defines f body rank) (hp : ∀ x, Prompt false (body x)) (xs : List L) {fuel : Nat}
    (hfuel : ∀ x ∈ xs, rank x < fuel) : ∃ c ev, history body fuel xs (empty n) = some (xs.map (result f), c, ev) := by
  obtain ⟨c, ev, h, _⟩ := history_works (n := n) hd (G := False) (S := []) (fun h => h.elim) (.inr hp) xs (empty n) (right_empty hn)
    (fun h => h.elim) fun x hx => ⟨hfuel x hx, fun h => h.elim⟩
  exact ⟨c, ev, h⟩

/-- **C130** (partial: the cache has room for all arguments that occur). Then references can be used as long as one likes, and, if nothing throws, the
body is run once for each argument. -/
theorem C130_once_partial (hd : Defines f body rank) {S : List L} (hS : Closed f body S) (hn : S.length ≤ n) (h0 : 0 < n) (xs : List L) {fuel : Nat}
    (hxs : ∀ x ∈ xs, rank x < fuel ∧ occurs x S = true) :
    ∃ c ev, history body fuel xs (empty n) = some (xs.map (result f), c, ev) ∧
      ((∀ x ∈ xs, ∃ v, f x = .ok v) → Distinct ev ∧ ∀ x, hasLabel c x = true ↔ occurs x ev = true) := by
  obtain ⟨c, ev, h, _, hg⟩ := history_works (n := n) hd (G := True) (S := S) (fun _ => ⟨hS, hn⟩) (.inl trivial) xs (empty n) (right_empty h0)
    (by intro _ y hy; simp [hasLabel, empty, OMap.find] at hy) fun x hx => ⟨(hxs x hx).1, fun _ => (hxs x hx).2⟩
  refine ⟨c, ev, h, fun hall => ?_⟩
  have := hg trivial hall
  refine ⟨this.distinct, fun x => ?_⟩
  rw [this.has]
  simp [hasLabel, empty, OMap.find]

end Helper.LRU.Recursive
