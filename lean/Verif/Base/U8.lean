/-
Statements about all bytes.
-/
namespace Verif

/-- To prove something of every byte, prove it of the 256 values. -/
theorem u8_all {P : UInt8 → Prop} (h : ∀ n : Fin 256, P (UInt8.ofNat n)) : ∀ c, P c := by
  intro c
  have := h ⟨c.toNat, c.toNat_lt⟩
  simpa using this

end Verif
