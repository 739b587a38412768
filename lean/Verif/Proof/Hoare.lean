import Verif.CSem
/-! # Proof rules: normal termination with a postcondition, and a condition at every crash point -/
namespace Shr
variable {σ α β : Type}

/-- `x` run from `s` completes normally with `Q`, and every state before one of its stores has `T`. -/
structure Ok (x : M σ α) (s : σ) (T : σ → Prop) (Q : α → σ → Prop) : Prop where
  tr : ∀ t ∈ (x s).trace, T t
  res : ∃ a s', (x s).res = .ok a s' ∧ Q a s'

namespace Ok

theorem bind {x : M σ α} {f : α → M σ β} {s : σ} {T : σ → Prop} {Q : β → σ → Prop}
    (h : Ok x s T (fun a s' => Ok (f a) s' T Q)) : Ok (x >>= f) s T Q := by
  obtain ⟨h1, a, s', h2, h3⟩ := h
  refine ⟨?_, ?_⟩
  · intro t ht
    rw [M.bind_apply, h2] at ht
    simp at ht
    rcases ht with ht | ht
    · exact h1 t ht
    · exact h3.tr t ht
  · obtain ⟨b, s'', h4, h5⟩ := h3.res
    exact ⟨b, s'', by rw [M.bind_apply, h2]; exact h4, h5⟩

theorem mono {x : M σ α} {s : σ} {T T' : σ → Prop} {Q Q' : α → σ → Prop} (h : Ok x s T Q)
    (hT : ∀ t, T t → T' t) (hQ : ∀ a s', Q a s' → Q' a s') : Ok x s T' Q' :=
  ⟨fun t ht => hT t (h.tr t ht), by
    obtain ⟨a, s', h1, h2⟩ := h.res
    exact ⟨a, s', h1, hQ _ _ h2⟩⟩

theorem pure {a : α} {s : σ} {T : σ → Prop} {Q : α → σ → Prop} (h : Q a s) :
    Ok (Pure.pure a : M σ α) s T Q := ⟨by simp, a, s, rfl, h⟩
theorem store {g : σ → σ} {s : σ} {T : σ → Prop} {Q : Unit → σ → Prop} (hT : T s) (h : Q () (g s)) :
    Ok (M.store g) s T Q := ⟨by simpa using hT, (), g s, rfl, h⟩
theorem get_bind {f : σ → M σ β} {s : σ} {T : σ → Prop} {Q : β → σ → Prop} (h : Ok (f s) s T Q) :
    Ok (M.get >>= f) s T Q := by
  refine ⟨?_, ?_⟩ <;> rw [M.get_bind]
  · exact h.tr
  · exact h.res
theorem pure_bind {a : α} {f : α → M σ β} {s : σ} {T : σ → Prop} {Q : β → σ → Prop}
    (h : Ok (f a) s T Q) : Ok ((Pure.pure a : M σ α) >>= f) s T Q := by
  refine ⟨?_, ?_⟩ <;> rw [M.pure_bind]
  · exact h.tr
  · exact h.res
theorem store_bind {g : σ → σ} {f : Unit → M σ β} {s : σ} {T : σ → Prop} {Q : β → σ → Prop}
    (hT : T s) (h : Ok (f ()) (g s) T Q) : Ok (M.store g >>= f) s T Q := by
  refine ⟨?_, ?_⟩ <;> rw [M.store_bind]
  · intro t ht
    simp at ht
    rcases ht with rfl | ht
    · exact hT
    · exact h.tr t ht
  · exact h.res
theorem assert_bind {b : Bool} {f : Unit → M σ β} {s : σ} {T : σ → Prop} {Q : β → σ → Prop}
    (hb : b = true) (h : Ok (f ()) s T Q) : Ok (M.assert b >>= f) s T Q := by
  refine ⟨?_, ?_⟩ <;> rw [M.assert_bind_of hb]
  · exact h.tr
  · exact h.res
theorem assert {b : Bool} {s : σ} {T : σ → Prop} {Q : Unit → σ → Prop}
    (hb : b = true) (h : Q () s) : Ok (M.assert b) s T Q := by
  subst hb; exact ⟨by simp, (), s, rfl, h⟩
theorem lift_bind {x : Except Fault α} {a : α} {f : α → M σ β} {s : σ} {T : σ → Prop}
    {Q : β → σ → Prop} (hx : x = .ok a) (h : Ok (f a) s T Q) : Ok (M.lift x >>= f) s T Q := by
  subst hx
  refine ⟨?_, ?_⟩ <;> rw [M.lift_ok_bind]
  · exact h.tr
  · exact h.res
theorem lift {x : Except Fault α} {a : α} {s : σ} {T : σ → Prop} {Q : α → σ → Prop}
    (hx : x = .ok a) (h : Q a s) : Ok (M.lift x) s T Q := by
  subst hx; exact ⟨by simp, a, s, rfl, h⟩

/-- Determinism: two facts about one run combine. -/
theorem and {x : M σ α} {s : σ} {T T' : σ → Prop} {Q Q' : α → σ → Prop} (h : Ok x s T Q)
    (h' : Ok x s T' Q') : Ok x s (fun t => T t ∧ T' t) (fun a s' => Q a s' ∧ Q' a s') :=
  ⟨fun t ht => ⟨h.tr t ht, h'.tr t ht⟩, by
    obtain ⟨a, s', h1, h2⟩ := h.res
    obtain ⟨b, s'', h3, h4⟩ := h'.res
    rw [h1] at h3; cases h3
    exact ⟨a, s', h1, h2, h4⟩⟩

end Ok
end Shr
