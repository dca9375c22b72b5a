import Verif.Proof.ProgExtra
import Verif.Proof.ProgInst
import Verif.Proof.Comp6502
import Verif.Proof.Comp6800
import Verif.Proof.CompZ80

/-! Programs: the processors, with the directives. -/

namespace Crasm

namespace C42
open _root_.Spec.M6502 (Chip full)

theorem machine (c : Chip) : Machine (full c) (C22.table c) (some (C22.cpuNum c)) := (core c).plus fun _ => rfl
theorem complete (c : Chip) : Complete (full c) (C22.table c) (some (C22.cpuNum c)) := (takes6502 c).plus
theorem definite (c : Chip) : Definite (full c) := (definite6502 c).plus
end C42

namespace C43
open _root_.Spec.M6800 (Chip full)

theorem machine (c : Chip) : C42.Machine (full c) (C23.table c) none := (core c).plus fun _ => rfl
theorem complete (c : Chip) : C42.Complete (full c) (C23.table c) none := (takes c).plus
theorem whole (c : Chip) : C42.Definite (full c) := (definite c).plus
end C43

namespace C44
open _root_.Spec.Z80 (full)

theorem machine : C42.Machine full Z80.mz80 none := core.plus fun _ => rfl
theorem complete : C42.Complete full Z80.mz80 none := takes.plus
theorem whole : C42.Definite full := definite.plus
end C44

end Crasm
