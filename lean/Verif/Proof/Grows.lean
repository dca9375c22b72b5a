import Verif.Proof.Run

/-! Output is only ever appended. -/

namespace Crasm

/-- What `m` prints comes after what was printed before. -/
class Grows (m : M α) : Prop where
  out : ∀ s, ∃ x, (m s).state.lst.out = x ++ s.lst.out

theorem Grows.bind {m : M α} {f : α → M β} (hm : Grows m) (hf : ∀ a, Grows (f a)) : Grows (m >>= f) := by
  constructor
  intro s
  have h1 := hm.out s
  rw [bind_run]
  cases h : m s with
  | ok a s' =>
    rw [h] at h1
    obtain ⟨x, hx⟩ := h1
    obtain ⟨y, hy⟩ := (hf a).out s'
    exact ⟨y ++ x, by simp only [Res.state] at *; rw [hy, hx, List.append_assoc]⟩
  | err s' => rw [h] at h1; exact h1
  | stop w s' => rw [h] at h1; exact h1
theorem Grows.pure (a : α) : Grows (Pure.pure a : M α) := ⟨fun _ => ⟨[], rfl⟩⟩
theorem Grows.getS : Grows Crasm.getS := ⟨fun _ => ⟨[], rfl⟩⟩
theorem Grows.whenM {c : Prop} [Decidable c] {a : M Unit} (ha : Grows a) :
    Grows (whenM c a) := by unfold Crasm.whenM; split; exact ha; exact Grows.pure ()
theorem Grows.modLst {f : Lst → Lst} (h : ∀ l, ∃ x, (f l).out = x ++ l.out) : Grows (modLst f) :=
  ⟨fun s => h s.lst⟩

macro "grows" : tactic => `(tactic| repeat' (first
  | infer_instance
  | exact Grows.pure _
  | exact Grows.getS
  | with_reducible refine Grows.bind ?_ (fun _ => ?_)
  | with_reducible refine Grows.whenM ?_
  | exact Grows.modLst fun _ => ⟨[], rfl⟩
  | exact Grows.modLst fun _ => ⟨[_], rfl⟩
  | split))

instance (w : Stop) : Grows (stopWith w : M α) := ⟨fun _ => ⟨[], rfl⟩⟩
instance (u : UB) : Grows (ubM u : M α) := ⟨fun _ => ⟨[], rfl⟩⟩
instance (m : Str) : Grows (fatal m : M α) := ⟨fun _ => ⟨[], rfl⟩⟩
instance (s pat : Str) : Grows (filterC s pat) := ⟨by
  intro st
  simp only [filterC, getS_bind_run]
  split
  · exact ⟨[], rfl⟩
  · split <;> exact ⟨[], rfl⟩⟩
instance (s : Str) : Grows (outputraw s) := by
  unfold outputraw
  refine Grows.bind Grows.getS fun st => ?_
  split
  · refine Grows.modLst fun l => ?_
    dsimp only
    split <;> split
    · exact ⟨[_, _, _], rfl⟩
    · exact ⟨[_, _], rfl⟩
    · exact ⟨[_, _], rfl⟩
    · exact ⟨[_], rfl⟩
  · exact Grows.pure _
instance : Grows outputEOL := by unfold outputEOL; grows
instance (c : Char) : Grows (putRaw c) := by unfold putRaw; grows
instance : Grows putSpace := by unfold putSpace; grows
instance grows_putSpaces (n : Nat) : Grows (putSpaces n) := by
  induction n with
  | zero => exact Grows.pure _
  | succ n ih => unfold putSpaces; grows
instance (n : Nat) : Grows (position n) := by unfold position; grows
instance grows_tryPats (t : Str) (ps : List Str) : Grows (tryPats t ps) := by
  induction ps with
  | nil => exact Grows.pure _
  | cons p ps ih => unfold tryPats; grows
instance (c : Char) : Grows (wrapLine c) := by unfold wrapLine; grows
instance (c : Char) : Grows (outputcar c) := by unfold outputcar; grows
instance grows_output (s : Str) : Grows (output s) := by
  induction s with
  | nil => exact Grows.pure _
  | cons p ps ih => unfold output; grows
instance : Grows outputline := by unfold outputline; grows
instance : Grows bumpStar := ⟨by
  intro s
  unfold bumpStar
  rw [getS_bind_run]
  generalize addS (starLabel s).value (BitVec.ofInt 64 s.advance) = v
  cases v <;> exact ⟨[], rfl⟩⟩

/-- A message that has been reported is on the listing. -/
theorem reportError_ok {msg : Str} {s s' : St} {u : Unit} (h : reportError msg s = .ok u s') :
    (diagText c!" ERROR: " s.linenumber msg ++ ['\n']) ∈ s'.lst.out := by
  have e : reportError msg s = (if 80 ≤ (diagText c!" ERROR: " s.linenumber msg).length then ubM .errorBuffer
    else do
      modFlags fun f => { f with listOn := true }
      outputraw (diagText c!" ERROR: " s.linenumber msg)) s := rfl
  rw [e] at h
  split at h
  · cases h
  · simp only [modFlags, modS_bind_run, outputraw, getS_bind_run, if_true, modLst, modS_run] at h
    cases h
    split <;> split <;> simp

end Crasm
