import Verif.Model.Main
import Verif.Proof.Run

/-! More fuel does not change the outcome of a run that has not run out of it. -/

namespace Crasm

def OutOfFuel : Res α → Prop
  | .stop .fuel _ => True
  | _ => False

/-- `m'` does what `m` does, wherever `m` has enough fuel. -/
def Le (m m' : M α) : Prop := ∀ s, OutOfFuel (m s) ∨ m' s = m s

theorem Le.refl (m : M α) : Le m m := fun _ => .inr rfl

theorem Le.bind {m m' : M α} {f f' : α → M β} (h : Le m m') (hf : ∀ a, Le (f a) (f' a)) :
    Le (m >>= f) (m' >>= f') := by
  intro s
  rw [bind_run, bind_run]
  rcases h s with h1 | h1
  · left
    revert h1
    cases m s with
    | ok a s' => exact False.elim
    | err s' => exact False.elim
    | stop w s' => cases w <;> exact fun h => h
  · rw [h1]
    cases m s with
    | ok a s' => exact hf a s'
    | err s' => exact .inr rfl
    | stop w s' => exact .inr rfl

theorem Le.catchErr {m m' h : M α} (hm : Le m m') : Le (catchErr m h) (catchErr m' h) := by
  intro s
  unfold Crasm.catchErr
  rcases hm s with h1 | h1
  · left
    revert h1
    cases m s with
    | ok a s' => exact False.elim
    | err s' => exact False.elim
    | stop w s' => cases w <;> exact fun h => h
  · rw [h1]; exact .inr rfl

theorem Le.fuel (m : M α) : Le (stopWith .fuel) m := fun _ => .inl trivial

theorem Le.trans {a b c : M α} (h : Le a b) (h' : Le b c) : Le a c := by
  intro s
  rcases h s with h1 | h1
  · exact .inl h1
  · rcases h' s with h2 | h2
    · rw [h1] at h2; exact .inl h2
    · exact .inr (h2.trans h1)

section
variable {self self' : Status → M RC} (hs : ∀ st, Le (self st) (self' st))
include hs

theorem le_ifRound (st : Status) : Le (ifRound self st) (ifRound self' st) := by
  unfold ifRound
  refine Le.bind (.refl _) fun _ => Le.bind (.refl _) fun s => ?_
  split
  · exact .refl _
  · exact Le.bind (hs st) fun _ => .refl _

theorem le_ifLoop (st : Status) : ∀ {n n' : Nat}, n ≤ n' → Le (ifLoop self st n) (ifLoop self' st n') := by
  intro n
  induction n with
  | zero => intro n' _; exact Le.fuel _
  | succ n ih =>
    intro n' h
    obtain ⟨k, rfl⟩ : ∃ k, n' = k + 1 := ⟨n' - 1, by omega⟩
    unfold ifLoop
    refine Le.bind (Le.catchErr (le_ifRound hs st)) fun r => ?_
    split
    · exact .refl _
    · exact ih (by omega)
    · exact .refl _

theorem le_ifElse {n n' : Nat} (h : n ≤ n') (st : Status) (b : Bool) (o : Option Char) :
    Le (ifElse self n st b o) (ifElse self' n' st b o) := by
  unfold ifElse
  exact Le.bind (.refl _) fun s => Le.bind (.refl _) fun _ => Le.bind (le_ifLoop hs _ h) fun _ => .refl _

theorem le_xIf {n n' : Nat} (h : n ≤ n') (st : Status) (o : Option Str) :
    Le (xIf self n st o) (xIf self' n' st o) := by
  unfold xIf
  refine Le.bind (.refl _) fun taken => Le.bind (.refl _) fun s => Le.bind (.refl _) fun _ =>
    Le.bind (.refl _) fun _ => Le.bind (.refl _) fun _ => Le.bind (le_ifLoop hs _ h) fun r =>
    Le.bind (.refl _) fun _ => ?_
  split
  · exact .refl _
  · refine Le.bind (.refl _) fun _ => ?_
    split
    · exact .refl _
    · exact .refl _
    · exact le_ifElse hs h _ _ _

theorem le_macroRun (st : Status) : ∀ {n n' : Nat}, n ≤ n' → Le (macroRun self st n) (macroRun self' st n') := by
  intro n
  induction n with
  | zero => intro n' _; exact Le.fuel _
  | succ n ih =>
    intro n' h
    obtain ⟨k, rfl⟩ : ∃ k, n' = k + 1 := ⟨n' - 1, by omega⟩
    unfold macroRun
    refine Le.bind (Le.catchErr (Le.bind (.refl _) fun _ => hs st)) fun r => ?_
    split
    · exact ih (by omega)
    · exact .refl _

theorem le_macrocall {n n' : Nat} (h : n ≤ n') (k : Str) (lab : Label) (st : Status) (o : Option Str) :
    Le (macrocall self n k lab st o) (macrocall self' n' k lab st o) := by
  unfold macrocall
  refine Le.bind (.refl _) fun _ => Le.bind (.refl _) fun _ => Le.bind (.refl _) fun s0 => ?_
  refine Le.bind (.refl _) fun args => ?_
  split
  · exact Le.bind (.refl _) fun _ => Le.bind (.refl _) fun _ => Le.bind (le_macroRun hs _ h) fun _ => .refl _
  · exact .refl _
end

theorem le_macroLoop (st : Status) : ∀ {n n' : Nat} (acc : List Str), n ≤ n' →
    Le (macroLoop st n acc) (macroLoop st n' acc) := by
  intro n
  induction n with
  | zero => intro n' acc _; exact Le.fuel _
  | succ n ih =>
    intro n' acc h
    obtain ⟨k, rfl⟩ : ∃ k, n' = k + 1 := ⟨n' - 1, by omega⟩
    unfold macroLoop
    refine Le.bind (.refl _) fun _ => Le.bind (.refl _) fun _ => Le.bind (.refl _) fun s => ?_
    split
    · exact .refl _
    · refine Le.bind (.refl _) fun _ => Le.bind (.refl _) fun _ => Le.bind (.refl _) fun r => ?_
      split
      · exact .refl _
      · exact ih _ (by omega)

theorem le_xMacro {n n' : Nat} (h : n ≤ n') (st : Status) (l o : Option Str) :
    Le (xMacro n st l o) (xMacro n' st l o) := by
  unfold xMacro
  split
  · exact .refl _
  · refine Le.bind (.refl _) fun s => ?_
    split
    · exact .refl _
    · split
      · exact .refl _
      · exact Le.bind (.refl _) fun _ => Le.bind (.refl _) fun _ => Le.bind (le_macroLoop st _ h) fun _ => .refl _

section
variable {self self' : Status → M RC} (hs : ∀ st, Le (self st) (self' st))
include hs

theorem le_callHandler {n n' : Nat} (h : n ≤ n') (hd : Handler) (arg : Int) (l o : Option Str) :
    Le (callHandler self n hd arg l o) (callHandler self' n' hd arg l o) := by
  unfold callHandler
  split
  · exact .refl _
  · exact .refl _
  · exact .refl _
  · rename_i p
    cases p <;> first | exact .refl _ | exact le_xIf hs h _ _ | exact le_xMacro h _ _ _

theorem le_execLine {n n' : Nat} (h : n ≤ n') (st : Status) (l o : Option Str) (k : Str) (lab : Label) :
    Le (execLine self n st l o k lab) (execLine self' n' st l o k lab) := by
  unfold execLine
  split
  · split
    · exact le_callHandler hs h _ _ _ _
    · exact .refl _
  · split
    · split
      · exact .refl _
      · refine Le.bind ?_ fun _ => .refl _
        split
        · exact le_macrocall hs h _ _ _ _
        · exact .refl _
    · split
      · refine Le.bind ?_ fun _ => .refl _
        unfold whenM
        split
        · split
          · exact Le.bind (le_callHandler hs h _ _ _ _) fun _ => .refl _
          · exact .refl _
        · exact .refl _
      · exact .refl _

theorem le_asmlineF {n n' : Nat} (h : n ≤ n') (st : Status) : Le (asmlineF self n st) (asmlineF self' n' st) := by
  unfold asmlineF
  refine Le.bind (.refl _) fun _ => Le.bind (.refl _) fun s => Le.bind (.refl _) fun t => ?_
  split
  · exact .refl _
  · refine Le.bind (.refl _) fun f => ?_
    unfold doFields
    split
    · exact .refl _
    · split
      · exact .refl _
      · exact Le.bind (.refl _) fun _ => le_execLine hs h _ _ _ _ _
end

theorem le_asmline {n n' : Nat} (h : n ≤ n') (st : Status) : Le (asmline n st) (asmline n' st) := by
  induction n generalizing n' st with
  | zero => exact Le.fuel _
  | succ n ih =>
    obtain ⟨k, rfl⟩ : ∃ k, n' = k + 1 := ⟨n' - 1, by omega⟩
    exact le_asmlineF (fun st => ih (by omega) st) (by omega) st

theorem le_passBody {n n' : Nat} (h : n ≤ n') : Le (passBody n) (passBody n') := by
  unfold passBody
  exact Le.bind (.refl _) fun _ => Le.bind (le_asmline h _) fun _ => .refl _

theorem le_passLoop {f f' : Nat} (hf : f ≤ f') : ∀ {n n' : Nat} (b : Bool), n ≤ n' →
    Le (passLoop f n b) (passLoop f' n' b) := by
  intro n
  induction n with
  | zero => intro n' b _; exact Le.fuel _
  | succ n ih =>
    intro n' b h
    obtain ⟨k, rfl⟩ : ∃ k, n' = k + 1 := ⟨n' - 1, by omega⟩
    unfold passLoop
    refine Le.bind (.refl _) fun s => ?_
    split
    · exact .refl _
    · exact Le.bind (Le.catchErr (Le.bind (le_passBody hf) fun _ => .refl _)) fun b => ih b (by omega)

theorem le_pass {f f' : Nat} (hf : f ≤ f') (n : Nat) : Le (pass f n) (pass f' n) := by
  unfold pass
  exact Le.bind (.refl _) fun _ => le_passLoop hf _ hf

theorem le_assemble {f f' : Nat} (hf : f ≤ f') (o : Opts) : Le (assemble f o) (assemble f' o) := by
  unfold assemble
  exact Le.bind (.refl _) fun _ => Le.bind (le_pass hf _) fun _ => Le.bind (.refl _) fun _ =>
    Le.bind (.refl _) fun _ => Le.bind (le_pass hf _) fun _ => .refl _

/-- A run that has enough fuel has the same outcome with more of it. -/
theorem finish_fuel {f f' : Nat} (hf : f ≤ f') {o : Opts} {s0 : St} (h : finish f o s0 ≠ .fuel) :
    finish f' o s0 = finish f o s0 := by
  rcases le_assemble hf o s0 with h1 | h1
  · exfalso
    apply h
    unfold finish
    revert h1
    cases assemble f o s0 with
    | ok a s' => exact False.elim
    | err s' => exact False.elim
    | stop w s' =>
      cases w with
      | fuel => exact fun _ => rfl
      | _ => exact False.elim
  · unfold finish; rw [h1]

theorem crasm_fuel {f f' : Nat} (hf : f ≤ f') {env : Env} {o : Opts} {name : Str}
    (h : crasm f env o name ≠ .fuel) : crasm f' env o name = crasm f env o name := by
  unfold crasm at *
  split
  · rfl
  · rename_i src hs
    rw [hs] at h
    exact finish_fuel hf h

/-- Two runs with enough fuel have the same outcome. -/
theorem crasm_fuel_irrelevant {f f' : Nat} {env : Env} {o : Opts} {name : Str}
    (h : crasm f env o name ≠ .fuel) (h' : crasm f' env o name ≠ .fuel) :
    crasm f env o name = crasm f' env o name := by
  rcases Nat.le_total f f' with hf | hf
  · exact (crasm_fuel hf h).symm
  · exact crasm_fuel hf h'

end Crasm
