import Verif.Proof.Steps

/-! The monad of the model obeys the monad laws. -/

namespace Crasm

instance : LawfulMonad M := LawfulMonad.mk' M
  (id_map := by
    intro α m
    funext s
    show ((m >>= fun a => pure (id a)) : M α) s = m s
    rw [bind_run]
    cases m s <;> rfl)
  (pure_bind := by intro α β a f; funext s; rfl)
  (bind_assoc := by
    intro α β γ m f g
    funext s
    simp only [bind_run]
    cases m s <;> rfl)
  (bind_pure_comp := by intros; rfl)

end Crasm
