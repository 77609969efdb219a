import Verif.Model.Aes
import Verif.Spec.Aes

/-!
# Facts about the tables of `pyaes`

Every fact is about all 256 indices of a table; it is checked by the kernel on the whole finite
domain and lifted to every byte.
-/

namespace NBC.Aes

open NBC.Spec.Aes

/-- `(x >> k) & 0xFF` as a byte. -/
def byteU (x : Int) (k : Nat) : UInt8 := UInt8.ofNat (byteAt x k)

/-- The four bytes of the low 32 bits of a Python integer. -/
def toWord (x : Int) : Word := ⟨byteU x 24, byteU x 16, byteU x 8, byteU x 0⟩

theorem byteAt_lt (x : Int) (k : Nat) : byteAt x k < 256 := by
  unfold byteAt; omega

theorem tables_length :
    tableS.length = 256 ∧ tableSi.length = 256 ∧ tableT1.length = 256 ∧ tableT2.length = 256 ∧
    tableT3.length = 256 ∧ tableT4.length = 256 ∧ tableT5.length = 256 ∧ tableT6.length = 256 ∧
    tableT7.length = 256 ∧ tableT8.length = 256 ∧ tableU1.length = 256 ∧ tableU2.length = 256 ∧
    tableU3.length = 256 ∧ tableU4.length = 256 := by decide +kernel

theorem forall_byte {P : UInt8 → Prop} (h : ∀ n < 256, P (UInt8.ofNat n)) (b : UInt8) : P b := by
  have := h b.toNat b.toNat_lt
  rwa [UInt8.ofNat_toNat] at this

theorem ofNat_toNat_lt {n : Nat} (h : n < 256) : (UInt8.ofNat n).toNat = n := by
  simp; omega

theorem sbox_tab : ∀ n < 256, look tableS n = (sbox (UInt8.ofNat n)).toNat := by decide +kernel

theorem invSbox_tab : ∀ n < 256, look tableSi n = (invSbox (UInt8.ofNat n)).toNat := by
  decide +kernel

theorem s_lt_tab : ∀ n < 256, look tableS n < 256 ∧ look tableSi n < 256 := by decide +kernel

theorem si_s_tab : ∀ n < 256, look tableSi (look tableS n) = n ∧ look tableS (look tableSi n) = n := by
  decide +kernel

theorem t1_tab : ∀ n < 256, toWord (look tableT1 n : Int) =
    ⟨gmul (UInt8.ofNat (look tableS n)) 2, UInt8.ofNat (look tableS n),
     UInt8.ofNat (look tableS n), gmul (UInt8.ofNat (look tableS n)) 3⟩ := by decide +kernel

theorem t2_tab : ∀ n < 256, toWord (look tableT2 n : Int) =
    ⟨gmul (UInt8.ofNat (look tableS n)) 3, gmul (UInt8.ofNat (look tableS n)) 2,
     UInt8.ofNat (look tableS n), UInt8.ofNat (look tableS n)⟩ := by decide +kernel

theorem t3_tab : ∀ n < 256, toWord (look tableT3 n : Int) =
    ⟨UInt8.ofNat (look tableS n), gmul (UInt8.ofNat (look tableS n)) 3,
     gmul (UInt8.ofNat (look tableS n)) 2, UInt8.ofNat (look tableS n)⟩ := by decide +kernel

theorem t4_tab : ∀ n < 256, toWord (look tableT4 n : Int) =
    ⟨UInt8.ofNat (look tableS n), UInt8.ofNat (look tableS n),
     gmul (UInt8.ofNat (look tableS n)) 3, gmul (UInt8.ofNat (look tableS n)) 2⟩ := by
  decide +kernel

theorem t5_tab : ∀ n < 256, toWord (look tableT5 n : Int) =
    ⟨gmul (UInt8.ofNat (look tableSi n)) 0x0e, gmul (UInt8.ofNat (look tableSi n)) 0x09,
     gmul (UInt8.ofNat (look tableSi n)) 0x0d, gmul (UInt8.ofNat (look tableSi n)) 0x0b⟩ := by
  decide +kernel

theorem t6_tab : ∀ n < 256, toWord (look tableT6 n : Int) =
    ⟨gmul (UInt8.ofNat (look tableSi n)) 0x0b, gmul (UInt8.ofNat (look tableSi n)) 0x0e,
     gmul (UInt8.ofNat (look tableSi n)) 0x09, gmul (UInt8.ofNat (look tableSi n)) 0x0d⟩ := by
  decide +kernel

theorem t7_tab : ∀ n < 256, toWord (look tableT7 n : Int) =
    ⟨gmul (UInt8.ofNat (look tableSi n)) 0x0d, gmul (UInt8.ofNat (look tableSi n)) 0x0b,
     gmul (UInt8.ofNat (look tableSi n)) 0x0e, gmul (UInt8.ofNat (look tableSi n)) 0x09⟩ := by
  decide +kernel

theorem t8_tab : ∀ n < 256, toWord (look tableT8 n : Int) =
    ⟨gmul (UInt8.ofNat (look tableSi n)) 0x09, gmul (UInt8.ofNat (look tableSi n)) 0x0d,
     gmul (UInt8.ofNat (look tableSi n)) 0x0b, gmul (UInt8.ofNat (look tableSi n)) 0x0e⟩ := by
  decide +kernel

theorem u1_tab : ∀ n < 256, toWord (look tableU1 n : Int) =
    ⟨gmul (UInt8.ofNat n) 0x0e, gmul (UInt8.ofNat n) 0x09,
     gmul (UInt8.ofNat n) 0x0d, gmul (UInt8.ofNat n) 0x0b⟩ := by decide +kernel

theorem u2_tab : ∀ n < 256, toWord (look tableU2 n : Int) =
    ⟨gmul (UInt8.ofNat n) 0x0b, gmul (UInt8.ofNat n) 0x0e,
     gmul (UInt8.ofNat n) 0x09, gmul (UInt8.ofNat n) 0x0d⟩ := by decide +kernel

theorem u3_tab : ∀ n < 256, toWord (look tableU3 n : Int) =
    ⟨gmul (UInt8.ofNat n) 0x0d, gmul (UInt8.ofNat n) 0x0b,
     gmul (UInt8.ofNat n) 0x0e, gmul (UInt8.ofNat n) 0x09⟩ := by decide +kernel

theorem u4_tab : ∀ n < 256, toWord (look tableU4 n : Int) =
    ⟨gmul (UInt8.ofNat n) 0x09, gmul (UInt8.ofNat n) 0x0d,
     gmul (UInt8.ofNat n) 0x0b, gmul (UInt8.ofNat n) 0x0e⟩ := by decide +kernel

theorem shift_tab : ∀ n < 256,
    toWord ((n <<< 24 : Nat) : Int) = ⟨UInt8.ofNat n, 0, 0, 0⟩ ∧
    toWord ((n <<< 16 : Nat) : Int) = ⟨0, UInt8.ofNat n, 0, 0⟩ ∧
    toWord ((n <<< 8 : Nat) : Int) = ⟨0, 0, UInt8.ofNat n, 0⟩ ∧
    toWord ((n : Nat) : Int) = ⟨0, 0, 0, UInt8.ofNat n⟩ := by decide +kernel

theorem rcon_tab : ∀ n < 30, look rcon n = (xtimes n 1).toNat := by decide +kernel

theorem inverse_tab : ∀ n < 256, n = 0 ∨ gmul (UInt8.ofNat n) (ginv (UInt8.ofNat n)) = 1 := by
  decide +kernel

end NBC.Aes
