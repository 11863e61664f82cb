import Verif.Model.Basic

namespace Pound

/-- Reduce a statement about all bytes to a check of the whole finite table. -/
theorem forall_byte {P : UInt8 → Prop} (h : ∀ n : Fin 256, P (UInt8.ofNat n.val)) :
    ∀ c, P c := by
  intro c
  have hc := c.toNat_lt
  have := h ⟨c.toNat, by simpa using hc⟩
  simpa using this

end Pound
