import Verif.Model.Py

/-!
# Steps of `do` blocks and loops in the exception monad
-/

namespace Verif

theorem py_bind {β γ : Type} {x : Py β} {a : β} (h : x = .ok a) (f : β → Py γ) : (x >>= f) = f a := by
  rw [h]; rfl

theorem py_bind_err {α β : Type} {x : Py α} {e : PyErr} (h : x = .error e) (f : α → Py β) : (x >>= f) = .error e := by
  rw [h]; rfl

theorem foldlM_cons_ok {β σ : Type} {f : σ → β → Py σ} {s s' : σ} {x : β} {l : List β} (h : f s x = .ok s') :
    (x :: l).foldlM f s = l.foldlM f s' := by
  rw [List.foldlM_cons, h]
  rfl

end Verif
