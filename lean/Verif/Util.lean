/-! General list lemmas used by the proofs. -/
namespace Helper

theorem nodup_map_inj {α : Type u} {β : Type v} {f : α → β} {l : List α}
    (h : (l.map f).Nodup) {a b : α} (ha : a ∈ l) (hb : b ∈ l) (hab : f a = f b) : a = b := by
  induction l with
  | nil => simp at ha
  | cons x t ih =>
    rw [List.map_cons, List.nodup_cons] at h
    rcases List.mem_cons.1 ha with ha' | ha' <;> rcases List.mem_cons.1 hb with hb' | hb'
    · rw [ha', hb']
    · exact absurd (ha' ▸ hab ▸ List.mem_map_of_mem hb') h.1
    · exact absurd (hb' ▸ hab ▸ List.mem_map_of_mem ha') h.1
    · exact ih h.2 ha' hb'

end Helper
