import Verif.Proof.ProgFull
import Verif.Proof.ProgUnique
import Verif.Proof.Prog6502

/-! Programs: the CPU directive of the 6502 family. -/

namespace Crasm.C42
open _root_.Spec.M6502 (Chip)

/-- The entry of the list of processors. -/
def cpuFor : Chip → Cpu
  | .m6500 => .c6500
  | .m6502 => .c6502
  | .m65c02 => .c65c02
def tablesFor : Chip → List TableId
  | .m65c02 => [.m6502, .m65c02]
  | _ => [.m6502]
/-- The flags that the 6502 wants. -/
def flags6502 (g : Flags) : Flags := { g with addr16 := true, lohi := true, relatif := false }

theorem init6502 (c : Chip) (s : St) : (cpuFor c).init s = inits (tablesFor c) { s with cpuflag := (some (C22.cpuNum c)).getD s.cpuflag, flags := flags6502 s.flags } := by
  cases c with
  | m65c02 =>
    have h : inits [.m65c02] = initLabelList .m65c02 C6502.m65c02 := bind_pure _
    unfold tablesFor inits
    rw [h]
    rfl
  | _ => rfl

theorem chosen6502 (c : Chip) : Chosen (cpuFor c) (tablesFor c) flags6502 (C22.table c) (some (C22.cpuNum c)) (_root_.Spec.M6502.isa c).little where
  init := init6502 c
  flags := fun _ => ⟨rfl, rfl, rfl⟩
  fresh := by cases c <;> decide +kernel
  found := by cases c <;> decide +kernel
  nodup := by cases c <;> decide +kernel
  all := by cases c <;> decide +kernel
  entry := fun e he => by
    cases c with
    | m65c02 =>
      rcases List.mem_append.1 he with h | h
      · exact ⟨.m6502, .head _, h⟩
      · exact ⟨.m65c02, .tail _ (.head _), h⟩
    | _ => exact ⟨.m6502, .head _, he⟩
  back := fun t ht e he => by
    cases c with
    | m65c02 =>
      rcases List.mem_cons.1 ht with rfl | ht
      · exact List.mem_append_left _ he
      · cases List.mem_singleton.1 ht
        exact List.mem_append_right _ he
    | _ => cases List.mem_singleton.1 ht; exact he
  good := by cases c <;> decide +kernel
  first := by cases c <;> decide +kernel

theorem cpuOf6502 (c : Chip) : cpuOf c.name = some (cpuFor c) := by cases c <;> decide +kernel
theorem mild6502 (c : Chip) : Mild c.name := by cases c <;> decide +kernel

end Crasm.C42
