import Verif.Lookup.Model
/-!
# Property C86: which compositions of containers can be printed
-/
namespace Helper.Lookup

/-- The types a type is directly made of. -/
def Ty.parts : Ty → List Ty
  | .leaf _ => []
  | .array t | .shared t | .vector t | .list t | .set t | .hlist t | .hlinked t | .hset t => [t]
  | .map k t | .hmap k t | .pair k t => [k, t]
  | .tuple ts => ts

/-- `Within a t`: type `a` is `t` or occurs in it. -/
inductive Within (a : Ty) : Ty → Prop where
  | refl : Within a a
  | part {t u : Ty} : u ∈ t.parts → Within a u → Within a t

theorem Within.trans {a b c : Ty} (h : Within b c) (h' : Within a b) : Within a c := by
  induction h with
  | refl => exact h'
  | part hu _ ih => exact .part hu ih

/-- The template or class is itself a member of namespace `Helper`. -/
def Ty.ofHelper : Ty → Prop
  | .leaf h => h = true
  | .array _ | .shared _ | .hlist _ | .hlinked _ | .hset _ | .hmap _ _ => True
  | _ => False

/-- Some class of namespace `Helper` occurs in the type. -/
def Mentions (t : Ty) : Prop := ∃ a, Within a t ∧ a.ofHelper

/-- The order of the standard containers in container.hpp. -/
def Ty.rank : Ty → Nat
  | .vector _ | .hlist _ => 1
  | .list _ | .hlinked _ => 2
  | .set _ | .hset _ => 3
  | .map _ _ | .hmap _ _ => 4
  | _ => 0

/-- A standard container (as opposed to pairs, tuples and element types). -/
def Ty.isStd : Ty → Prop
  | .vector _ | .list _ | .set _ | .map _ _ => True
  | _ => False

/-- The printer of the type prints its elements itself, in container.hpp, rather than by a function of stlio.hpp. -/
def Ty.direct : Ty → Prop
  | .vector _ | .hlist _ | .set _ | .hset _ | .map _ _ | .hmap _ _ => True
  | _ => False

/-- Induction on types through their parts. -/
theorem Ty.induct {P : Ty → Prop} (h : ∀ t, (∀ u ∈ t.parts, P u) → P t) : ∀ t, P t := by
  intro t
  refine Ty.rec (motive_1 := P) (motive_2 := fun ts => ∀ u ∈ ts, P u) ?_ ?_ ?_ ?_ ?_ ?_ ?_ ?_ ?_ ?_ ?_ ?_ ?_ ?_ ?_ t
  case refine_1 => intro b; exact h _ (fun u hu => by cases hu)
  case refine_7 | refine_11 | refine_12 =>
    intro a b ha hb; apply h; intro u hu
    simp only [Ty.parts, List.mem_cons, List.not_mem_nil, or_false] at hu
    rcases hu with rfl | rfl <;> assumption
  case refine_13 => intro ts hts; exact h _ hts
  case refine_14 => intro u hu; cases hu
  case refine_15 => intro a as ha has u hu; rcases List.mem_cons.1 hu with rfl | hu; exact ha; exact has u hu
  all_goals
    intro a ha; apply h; intro u hu
    simp only [Ty.parts, List.mem_cons, List.not_mem_nil, or_false] at hu
    subst hu; assumption

theorem assocAny_iff (ts : List Ty) : assocAny ts = true ↔ ∃ t ∈ ts, assoc t = true := by
  induction ts with
  | nil => simp [assocAny]
  | cons t ts ih => simp [assocAny, ih]

theorem printsAll_iff (ts : List Ty) : printsAll ts = true ↔ ∀ t ∈ ts, prints .writeTuple t = true := by
  induction ts with
  | nil => simp [printsAll]
  | cons t ts ih => simp [printsAll, ih]

theorem assoc_step (t : Ty) : assoc t = true ↔ t.ofHelper ∨ ∃ u ∈ t.parts, assoc u = true := by
  cases t <;> simp [assoc, Ty.ofHelper, Ty.parts, assocAny_iff]

theorem mentions_step (t : Ty) : Mentions t ↔ t.ofHelper ∨ ∃ u ∈ t.parts, Mentions u := by
  constructor
  · rintro ⟨a, h, ha⟩
    cases h with
    | refl => exact .inl ha
    | part hu h => exact .inr ⟨_, hu, a, h, ha⟩
  · rintro (h | ⟨u, hu, a, h, ha⟩)
    · exact ⟨t, .refl, h⟩
    · exact ⟨a, .part hu h, ha⟩

/-- C86: a namespace is associated with a type if one of its classes occurs in it. -/
theorem C86_assoc (t : Ty) : assoc t = true ↔ Mentions t := by
  induction t using Ty.induct with
  | h t ih =>
    rw [assoc_step, mentions_step]
    exact or_congr Iff.rfl ⟨fun ⟨u, hu, h⟩ => ⟨u, hu, (ih u hu).1 h⟩, fun ⟨u, hu, h⟩ => ⟨u, hu, (ih u hu).2 h⟩⟩

/-- The place where the parts of a type are printed. -/
def siteOf : Ty → Site
  | .leaf _ => .client
  | .array _ => .body .array
  | .shared _ => .body .shared
  | .vector _ | .hlist _ => .body .vector
  | .list _ | .hlinked _ => .writeSequence
  | .set _ | .hset _ => .body .set
  | .map _ _ | .hmap _ _ => .body .map
  | .pair _ _ => .std
  | .tuple _ => .writeTuple

/-- What has to be visible at a place to print a type. -/
def seen (s : Site) : Ty → Bool
  | .vector t => found s .vector (.vector t)
  | .list t => found s .list (.list t)
  | .set t => found s .set (.set t)
  | .map k t => found s .map (.map k t)
  | .tuple ts => assocAny ts
  | _ => true

theorem prints_step (s : Site) (t : Ty) :
    prints s t = true ↔ seen s t = true ∧ ∀ u ∈ t.parts, prints (siteOf t) u = true := by
  cases t <;> simp [prints, seen, Ty.parts, siteOf, found, assoc, printsAll_iff]

theorem or_iff_imp {a b : Bool} : (a = true ∨ b = true) ↔ (a = false → b = true) := by
  cases a <;> simp

/-- A part of type `u` can be printed by the printer of `t`, as far as finding the printer goes. -/
theorem seen_part (t u : Ty) (hu : u ∈ t.parts) :
    seen (siteOf t) u = true ↔
      (u.isStd → ¬ Mentions u → t.direct ∧ u.rank ≤ t.rank) ∧ ((∃ ts, u = .tuple ts) → Mentions u) := by
  simp only [← C86_assoc]
  cases u <;> cases t <;>
    simp [seen, siteOf, found, visible, Ty.isStd, Ty.direct, Ty.rank, assoc] <;>
    first | exact or_iff_imp | (simp [Ty.parts] at hu; done)

/-- C86: exactly which types can be printed by a client. Every tuple in the type mentions a class of the
library, and every standard container in it that mentions none is printed by the printer of a container that is
the same or declared later (vectors, then sets, then maps, with lists printed by the last two only). -/
theorem C86_exact (t : Ty) : prints .client t = true ↔
    (∀ ts, Within (.tuple ts) t → Mentions (.tuple ts)) ∧
    ∀ p c, Within p t → c ∈ p.parts → c.isStd → ¬ Mentions c → p.direct ∧ c.rank ≤ p.rank := by
  have key : ∀ t, ∀ s, prints s t = true ↔ seen s t = true ∧
      (∀ ts, ∀ u ∈ t.parts, Within (.tuple ts) u → Mentions (.tuple ts)) ∧
      ∀ p c, Within p t → c ∈ p.parts → c.isStd → ¬ Mentions c → p.direct ∧ c.rank ≤ p.rank := by
    intro t
    induction t using Ty.induct with
    | h t ih =>
      intro s
      rw [prints_step]
      refine and_congr Iff.rfl ⟨fun h => ⟨?_, ?_⟩, fun ⟨h1, h2⟩ u hu => ?_⟩
      · intro ts u hu hw
        obtain ⟨hs, h1, _⟩ := (ih u hu _).1 (h u hu)
        cases hw with
        | refl => exact ((seen_part t _ hu).1 hs).2 ⟨_, rfl⟩
        | part hv hw => exact h1 ts _ hv hw
      · intro p c hp hc
        cases hp with
        | refl => exact ((seen_part _ _ hc).1 ((ih c hc _).1 (h c hc)).1).1
        | part hu hp => exact ((ih _ hu _).1 (h _ hu)).2.2 p c hp hc
      · refine (ih u hu _).2 ⟨(seen_part t u hu).2 ⟨h2 t u .refl hu, ?_⟩, ?_, ?_⟩
        · rintro ⟨ts, rfl⟩; exact h1 ts _ hu .refl
        · intro ts v hv hw; exact h1 ts u hu (.part hv hw)
        · intro p c hp; exact h2 p c (.part hu hp)
  rw [key]
  constructor
  · rintro ⟨hs, h1, h2⟩
    refine ⟨fun ts hw => ?_, h2⟩
    cases hw with
    | refl => exact (C86_assoc _).1 (by simpa [seen, assoc] using hs)
    | part hu hw => exact h1 ts _ hu hw
  · rintro ⟨h1, h2⟩
    refine ⟨?_, fun ts u hu hw => h1 ts (.part hu hw), h2⟩
    cases t with
    | tuple ts => simpa [seen, assoc] using (C86_assoc _).2 (h1 ts .refl)
    | _ => simp [seen, found, visible]

/-- C86, the part of it that holds: if every element type is a class of the library, every composition, of
any depth, can be printed. -/
theorem C86_library_partial (t : Ty) (hl : ∀ b, Within (.leaf b) t → b = true) (hn : ¬ Within (.tuple []) t) :
    prints .client t = true := by
  have key : ∀ t, (∀ b, Within (.leaf b) t → b = true) → ¬ Within (.tuple []) t → Mentions t := by
    intro t
    induction t using Ty.induct with
    | h t ih =>
      intro hl hn
      have hp : ∀ u ∈ t.parts, Mentions u := fun u hu => ih u hu (fun b h => hl b (.part hu h)) (fun h => hn (.part hu h))
      rw [mentions_step]
      cases t with
      | leaf b => exact .inl (hl b .refl)
      | tuple ts =>
        cases ts with
        | nil => exact absurd .refl hn
        | cons a as => exact .inr ⟨a, by simp [Ty.parts], hp a (by simp [Ty.parts])⟩
      | vector t | list t | set t => exact .inr ⟨t, by simp [Ty.parts], hp t (by simp [Ty.parts])⟩
      | map t _ | pair t _ => exact .inr ⟨t, by simp [Ty.parts], hp t (by simp [Ty.parts])⟩
      | _ => exact .inl trivial
  rw [C86_exact]
  refine ⟨fun ts hw => key _ (fun b h => hl b (Within.trans hw h)) (fun h => hn (Within.trans hw h)), fun p c hp hc _ hm => ?_⟩
  exact absurd (key c (fun b h => hl b (Within.trans hp (.part hc h))) (fun h => hn (Within.trans hp (.part hc h)))) hm

/-- C86: so can the library's own containers nested in each other, whatever the element type. -/
theorem C86_own_partial (t : Ty) (h : ∀ p, Within p t → ¬ p.isStd ∧ ∀ ts, p ≠ .tuple ts) : prints .client t = true := by
  rw [C86_exact]
  exact ⟨fun ts hw => absurd rfl ((h _ hw).2 ts), fun p c hp hc hs => absurd hs (h c (Within.trans hp (.part hc .refl))).1⟩

/-- C86: and vectors of vectors to any depth. -/
theorem C86_vectors_partial (b : Bool) (n : Nat) : prints .client (Nat.repeat .vector n (.leaf b)) = true := by
  have : ∀ s, s = .client ∨ s = .body .vector → ∀ n, prints s (Nat.repeat .vector n (.leaf b)) = true := by
    intro s hs n
    induction n generalizing s with
    | zero => simp [Nat.repeat, prints]
    | succ n ih =>
      simp only [Nat.repeat, prints, ih (.body .vector) (.inr rfl), Bool.and_true]
      rcases hs with rfl | rfl <;> simp [found, visible]
  exact this _ (.inl rfl) n

/-- C86 is false: these types cannot be printed although their elements can. `int` stands for any type outside of the
library: a tuple of such; an `Array` of a vector; a vector of a set; a `List` of a set; a list of a vector; a pair of
an integer and a vector. -/
theorem C86_refuted :
    prints .client (.tuple [.leaf false, .leaf false]) = false ∧
    prints .client (.array (.vector (.leaf false))) = false ∧
    prints .client (.vector (.set (.leaf false))) = false ∧
    prints .client (.hlist (.set (.leaf false))) = false ∧
    prints .client (.list (.vector (.leaf false))) = false ∧
    prints .client (.pair (.leaf false) (.vector (.leaf false))) = false := by
  decide +kernel

/-- C86: no tuple of types outside of the library can be printed, whatever their number, and wherever it occurs. -/
theorem C86_tuple_refuted (n : Nat) (t : Ty) (h : Within (.tuple (List.replicate n (.leaf false))) t) : prints .client t = false := by
  rw [Bool.eq_false_iff]
  intro hp
  obtain ⟨a, ha, hh⟩ := ((C86_exact t).1 hp).1 _ h
  cases ha with
  | refl => exact hh
  | part hu ha =>
    rw [List.eq_of_mem_replicate hu] at ha
    cases ha with
    | refl => exact absurd hh (by simp [Ty.ofHelper])
    | part hv _ => cases hv

/-! Examples: the hypotheses hold of some types, and the other order of nesting can be printed. -/

example : prints .client (.set (.vector (.leaf false))) = true := by decide +kernel
example : prints .client (.map (.leaf false) (.set (.list (.leaf false)))) = true := by decide +kernel
example : prints .client (.array (.hlist (.leaf false))) = true := by decide +kernel
example : prints .client (.tuple [.leaf false, .leaf true]) = true := by decide +kernel
example : prints .client (.vector (.set (.leaf true))) = true := by decide +kernel

end Helper.Lookup
