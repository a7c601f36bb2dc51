import Verif.Arr.Faults
/-!
# Model of `complement` (array.hpp:249-260) and property C32

`nmax` and the entries of `vars` are `size_t` values.
-/
namespace Helper.Arr

/-- array.hpp:252-258, the loop, with `n` passes to go: `j`, `kr`, `kv` as in the source; reading
`vars[kv]` and writing `cmpl[kr]` outside the arrays is undefined. -/
def complementLoop (vars : List Nat) : Nat → Nat → Nat → Nat → List Nat → Res (List Nat)
  | 0, _, _, _, cmpl => .ok cmpl
  | n + 1, j, kr, kv, cmpl =>
    if kv = vars.length then
      if kr < cmpl.length then complementLoop vars n (j + 1) (kr + 1) kv (cmpl.set kr j) else .ub .outOfBounds
    else
      match vars[kv]? with
      | none => .ub .outOfBounds
      | some v =>
        if j ≠ v then
          if kr < cmpl.length then complementLoop vars n (j + 1) (kr + 1) kv (cmpl.set kr j)
          else .ub .outOfBounds
        else complementLoop vars n (j + 1) kr (kv + 1) cmpl

/-- array.hpp:249-260 `complement(nmax,vars)`. The size `nmax-vars.size()` wraps around modulo 2^64;
an array of so many 8-byte elements that their size wraps around cannot be constructed
(`C30_refuted`: construction is undefined when the allocation succeeds). -/
def complement (nmax : Nat) (vars : List Nat) : Res (List Nat) :=
  let n := (nmax + 2 ^ 64 - vars.length) % 2 ^ 64
  if 2 ^ 64 ≤ n * 8 then .ub .outOfBounds
  else complementLoop vars nmax 0 0 0 (List.replicate n 0)

/-- Strictly increasing with entries from `j` to `j+n-1`. -/
def Good (vars : List Nat) (j n : Nat) : Prop := vars.Pairwise (· < ·) ∧ ∀ v ∈ vars, j ≤ v ∧ v < j + n

theorem good_full {rest : List Nat} : ∀ {j n : Nat}, Good rest j n → rest.length = n → ∀ v t, rest = v :: t → v = j := by
  induction rest with
  | nil => intro j n _ _ v t h; cases h
  | cons a t ih =>
    intro j n hg hl v t' he
    obtain ⟨rfl, rfl⟩ := List.cons.inj he
    have hv := hg.2 a (List.mem_cons_self ..)
    apply Classical.byContradiction
    intro hne
    have hp := List.pairwise_cons.mp hg.1
    match t, hp, hl with
    | [], hp, hl => simp at hl; omega
    | b :: t'', hp, hl =>
      have hg' : Good (b :: t'') (j + 1) (n - 1) := by
        refine ⟨hp.2, fun w hw => ?_⟩
        have h1 := hg.2 w (List.mem_cons_of_mem _ hw)
        have h2 := hp.1 w hw
        omega
      have := ih hg' (by simp at hl ⊢; omega) b t'' rfl
      have h2 := hp.1 b (by simp)
      omega

theorem good_length {rest : List Nat} : ∀ {j n : Nat}, Good rest j n → rest.length ≤ n := by
  induction rest with
  | nil => intro j n _; simp
  | cons a t ih =>
    intro j n hg
    have hp := List.pairwise_cons.mp hg.1
    have ha := hg.2 a (List.mem_cons_self ..)
    have : Good t (j + 1) (n - 1) := by
      refine ⟨hp.2, fun w hw => ?_⟩
      have h1 := hg.2 w (List.mem_cons_of_mem _ hw)
      have h2 := hp.1 w hw
      omega
    have := ih this
    simp; omega

theorem filter_cons_notMem {rest : List Nat} {j n : Nat} (h : j ∉ rest) :
    (List.range' j (n + 1)).filter (fun i => decide (i ∉ rest)) =
      j :: (List.range' (j + 1) n).filter (fun i => decide (i ∉ rest)) := by
  rw [List.range'_succ, List.filter_cons, if_pos (by simp [h])]

theorem complementLoop_spec (vars : List Nat) : ∀ (n j : Nat) (done : List Nat) (kv r : Nat),
    kv ≤ vars.length → r + (vars.drop kv).length = n →
    (Good (vars.drop kv) j n → complementLoop vars n j done.length kv (done ++ List.replicate r 0) =
      .ok (done ++ (List.range' j n).filter (fun i => decide (i ∉ vars.drop kv)))) ∧
    (¬ Good (vars.drop kv) j n → complementLoop vars n j done.length kv (done ++ List.replicate r 0) =
      .ub .outOfBounds) := by
  intro n
  induction n with
  | zero =>
    intro j done kv r hkv hr
    have h0 : r = 0 := by omega
    have h1 : vars.drop kv = [] := List.length_eq_zero_iff.mp (by omega)
    rw [h1, h0]
    refine ⟨fun _ => by simp [complementLoop], fun h => ?_⟩
    exact absurd ⟨List.Pairwise.nil, by simp⟩ h
  | succ n ih =>
    intro j done kv r hkv hr
    have write : ∀ r', r = r' + 1 → (done ++ List.replicate r 0).set done.length j =
        (done ++ [j]) ++ List.replicate r' 0 := by
      intro r' he; subst he; simp [List.replicate_succ]
    rw [complementLoop]
    by_cases hk : kv = vars.length
    · rw [if_pos hk]
      have h1 : vars.drop kv = [] := by rw [hk]; simp
      rw [h1] at hr ⊢
      have hr' : r = n + 1 := by simpa using hr
      rw [if_pos (by simp; omega), write n hr']
      have := ih (j + 1) (done ++ [j]) kv n hkv (by rw [h1]; simp)
      rw [h1] at this
      have hgood : ∀ a b, Good [] a b := fun a b => ⟨List.Pairwise.nil, by simp⟩
      refine ⟨fun _ => ?_, fun h => absurd (hgood _ _) h⟩
      have h2 := this.1 (hgood _ _)
      rw [List.length_append] at h2
      simp only [List.length_singleton] at h2
      rw [h2, filter_cons_notMem (by simp)]
      simp
    · rw [if_neg hk]
      have hlt : kv < vars.length := by omega
      rw [List.getElem?_eq_getElem hlt]
      simp only
      have hd : vars.drop kv = vars[kv] :: vars.drop (kv + 1) := List.drop_eq_getElem_cons hlt
      by_cases hj : j = vars[kv]
      · rw [if_neg (by simpa using hj)]
        have hr' : r + (vars.drop (kv + 1)).length = n := by rw [hd] at hr; simp at hr ⊢; omega
        obtain ⟨i1, i2⟩ := ih (j + 1) done (kv + 1) r (by omega) hr'
        have hiff : Good (vars.drop kv) j (n + 1) ↔ Good (vars.drop (kv + 1)) (j + 1) n := by
          rw [hd]
          constructor
          · intro ⟨h1, h2⟩
            have hp := List.pairwise_cons.mp h1
            refine ⟨hp.2, fun v hv => ?_⟩
            have := hp.1 v hv
            have := h2 v (List.mem_cons_of_mem _ hv)
            omega
          · intro ⟨h1, h2⟩
            refine ⟨List.pairwise_cons.mpr ⟨fun v hv => ?_, h1⟩, fun v hv => ?_⟩
            · have := h2 v hv; omega
            · rcases List.mem_cons.mp hv with hv | hv
              · omega
              · have := h2 v hv; omega
        constructor
        · intro hg
          have hg' := hiff.mp hg
          rw [i1 hg']
          congr 2
          rw [List.range'_succ, List.filter_cons, if_neg (by rw [hd, ← hj]; simp)]
          apply List.filter_congr
          intro i hi
          have hi' := List.mem_range'_1.mp hi
          rw [hd]
          have : i ≠ vars[kv] := by omega
          rw [decide_eq_decide, List.mem_cons]
          simp only [this, false_or]
        · intro hg
          exact i2 (fun h => hg (hiff.mpr h))
      · rw [if_pos hj]
        by_cases hr0 : r = 0
        · rw [if_neg (by simp [hr0])]
          refine ⟨fun hg => ?_, fun _ => rfl⟩
          exact absurd (good_full hg (by omega) _ _ hd).symm hj
        · obtain ⟨r', rfl⟩ : ∃ r', r = r' + 1 := ⟨r - 1, by omega⟩
          rw [if_pos (by simp), write r' rfl]
          obtain ⟨i1, i2⟩ := ih (j + 1) (done ++ [j]) kv r' hkv (by omega)
          rw [List.length_append] at i1 i2
          simp only [List.length_singleton] at i1 i2
          have hgt : Good (vars.drop kv) j (n + 1) → ∀ v ∈ vars.drop kv, j < v := by
            intro hg v hv
            rw [hd] at hg hv
            have h0 := hg.2 vars[kv] (List.mem_cons_self ..)
            rcases List.mem_cons.mp hv with hv | hv
            · omega
            · have := (List.pairwise_cons.mp hg.1).1 v hv; omega
          have hiff : Good (vars.drop kv) j (n + 1) ↔ Good (vars.drop kv) (j + 1) n := by
            constructor
            · intro hg
              refine ⟨hg.1, fun v hv => ?_⟩
              have := hgt hg v hv
              have := hg.2 v hv
              omega
            · intro hg
              refine ⟨hg.1, fun v hv => ?_⟩
              have := hg.2 v hv
              omega
          constructor
          · intro hg
            have hnm : j ∉ vars.drop kv := fun hm => by have := hgt hg j hm; omega
            rw [i1 (hiff.mp hg), filter_cons_notMem hnm]
            simp
          · intro hg
            exact i2 (fun h => hg (hiff.mpr h))

/-- C32: for strictly increasing `vars` with entries below `nmax`, the result is the increasing list
of the other indices, if these fit into the address space. -/
theorem C32_complement_partial (nmax : Nat) (vars : List Nat) (hn : nmax < 2 ^ 64) (hfit : (nmax - vars.length) * 8 < 2 ^ 64)
    (hs : vars.Pairwise (· < ·)) (hb : ∀ v ∈ vars, v < nmax) :
    complement nmax vars = .ok ((List.range nmax).filter (fun i => decide (i ∉ vars))) := by
  have hgood : Good vars 0 nmax := ⟨hs, fun v hv => ⟨by omega, by simpa using hb v hv⟩⟩
  have hlen : vars.length ≤ nmax := good_length hgood
  have hsz : (nmax + 2 ^ 64 - vars.length) % 2 ^ 64 = nmax - vars.length := by omega
  unfold complement
  rw [hsz]
  simp only
  rw [if_neg (by omega)]
  have := (complementLoop_spec vars nmax 0 [] 0 (nmax - vars.length) (by omega) (by simp; omega)).1
    (by simpa using hgood)
  simp only [List.length_nil, List.nil_append, List.drop_zero] at this
  rw [this, List.range_eq_range']

/-- C32: for any other `vars` (that fits into memory) the call is undefined. -/
theorem C32_undefined (nmax : Nat) (vars : List Nat) (hn : nmax < 2 ^ 64) (hv : vars.length * 8 < 2 ^ 64)
    (h : ¬ (vars.Pairwise (· < ·) ∧ ∀ v ∈ vars, v < nmax)) :
    complement nmax vars = .ub .outOfBounds := by
  unfold complement
  simp only
  split
  · rfl
  · rename_i hfit
    by_cases hlen : vars.length ≤ nmax
    · have hsz : (nmax + 2 ^ 64 - vars.length) % 2 ^ 64 = nmax - vars.length := by omega
      rw [hsz]
      have := (complementLoop_spec vars nmax 0 [] 0 (nmax - vars.length) (by omega) (by simp; omega)).2 (by
        intro hg
        rw [List.drop_zero] at hg
        exact h ⟨hg.1, fun v hv => by simpa using (hg.2 v hv).2⟩)
      simpa using this
    · exfalso; omega

/-- C32 is false if the indices that are not listed do not fit into the address space: their number times eight wraps around. -/
theorem C32_refuted (nmax : Nat) (vars : List Nat) (hn : nmax < 2 ^ 64) (hv : vars.length * 8 < 2 ^ 64)
    (hfit : 2 ^ 64 ≤ (nmax - vars.length) * 8) : complement nmax vars = .ub .outOfBounds := by
  have hsz : (nmax + 2 ^ 64 - vars.length) % 2 ^ 64 = nmax - vars.length := by omega
  unfold complement
  rw [hsz]
  exact if_pos hfit

example : complement (2 ^ 61) [] = .ub .outOfBounds := C32_refuted _ _ (by decide) (by decide) (by decide)

/-- C32: the outcome is defined exactly for strictly increasing `vars` below `nmax` such that the other indices fit into the
address space. -/
theorem C32_iff (nmax : Nat) (vars : List Nat) (hn : nmax < 2 ^ 64) (hv : vars.length * 8 < 2 ^ 64) :
    (∃ l, complement nmax vars = .ok l) ↔
      (vars.Pairwise (· < ·) ∧ ∀ v ∈ vars, v < nmax) ∧ (nmax - vars.length) * 8 < 2 ^ 64 := by
  constructor
  · intro ⟨l, hl⟩
    refine ⟨?_, ?_⟩ <;> apply Classical.byContradiction <;> intro h
    · rw [C32_undefined nmax vars hn hv h] at hl
      cases hl
    · rw [C32_refuted nmax vars hn hv (Nat.not_lt.1 h)] at hl
      cases hl
  · intro ⟨⟨h1, h2⟩, h3⟩
    exact ⟨_, C32_complement_partial nmax vars hn h3 h1 h2⟩

example : complement 6 [1, 3, 4] = .ok [0, 2, 5] ∧ complement 6 [3, 1] = .ub .outOfBounds ∧
    complement 3 [1, 1] = .ub .outOfBounds ∧ complement 2 [0, 1, 2] = .ub .outOfBounds ∧
    complement 3 [] = .ok [0, 1, 2] ∧ complement 3 [7] = .ub .outOfBounds := by decide +kernel

end Helper.Arr
