import Verif.Model.Unbounded

/-! Helper lemmas: loops that may not end. -/

namespace Rawdio

theorem unbounded_of {α : Type} {r : Nat → Res α} (hm : ∀ f x, r f = .ok x → ∀ g, r (g + f) = .ok x) {f : Nat} {x : α}
    (h : r f = .ok x) : unbounded r = .ok x := by
  have hx : ∃ x n, r n = .ok x := ⟨x, f, h⟩
  unfold unbounded
  rw [dif_pos hx]
  obtain ⟨n, hn⟩ := hx.choose_spec
  have h1 := hm _ _ hn f
  have h2 := hm _ _ h n
  rw [Nat.add_comm, h2] at h1
  exact h1.symm

theorem unbounded_ok {α : Type} {r : Nat → Res α} {x : α} (h : unbounded r = .ok x) : ∃ f, r f = .ok x := by
  unfold unbounded at h
  split at h
  · rename_i hx
    obtain ⟨n, hn⟩ := hx.choose_spec
    cases h
    exact ⟨n, hn⟩
  · split at h
    · cases h
    · split at h <;> cases h

end Rawdio
