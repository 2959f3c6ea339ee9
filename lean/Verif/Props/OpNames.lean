import Verif.Model.OpNames
import Verif.Props.ElfNames
/-! # C99: names of the operations of DWARF expressions -/
namespace EspSize

/-- **C99** operations: the table has for every code the names of all the constants with this value, and nothing for
the other codes. -/
theorem C99_operations (n : Nat) : dget (nameDict opMap) n = constName (str "DW_OP_") opConsts n :=
  names_agree (ex := []) (by decide +kernel) (by decide +kernel) n (by simp)

/-- **C99** codes of operations are a byte. -/
theorem C99_operation_bytes : ∀ c ∈ opConsts, c.2 < 256 := by decide +kernel

/-- **C99** the numbered operations are consecutive. -/
theorem C99_numbered (k : Nat) (hk : k < 32) : (String.ofList (str "lit" ++ intStr k), 0x30 + k) ∈ opConsts ∧
    (String.ofList (str "reg" ++ intStr k), 0x50 + k) ∈ opConsts ∧ (String.ofList (str "breg" ++ intStr k), 0x70 + k) ∈ opConsts := by
  have : ∀ k ∈ List.range 32, (String.ofList (str "lit" ++ intStr k), 0x30 + k) ∈ opConsts ∧
      (String.ofList (str "reg" ++ intStr k), 0x50 + k) ∈ opConsts ∧ (String.ofList (str "breg" ++ intStr k), 0x70 + k) ∈ opConsts := by
    decide +kernel
  exact this k (List.mem_range.mpr hk)

example : dget (nameDict opMap) 0x03 = some (str "DW_OP_addr") ∧ dget (nameDict opMap) 0x01 = none ∧
    dget (nameDict opMap) 0xE0 = some (str "DW_OP_lo_user/DW_OP_GNU_push_tls_address/DW_OP_HP_unknown") := by decide +kernel

end EspSize
