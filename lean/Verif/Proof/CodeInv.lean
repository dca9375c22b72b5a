import Verif.Proof.Run
import Verif.Proof.Gen
import Verif.Proof.Records

/-! What the code file contains at every moment of a run. -/

namespace Crasm

/-- The bytes generated with CODE in force in pass `p`, with their addresses, in order. -/
def codeOf (p : Nat) (log : List Event) : List (Word × Byte) :=
  log.reverse.filterMap fun
    | .byte q a v on => if q = p ∧ on = true then some (a, v) else none
    | _ => none

/-- A byte generation: pass, address, value, CODE in force? -/
abbrev ByteEv := Nat × Word × Byte × Bool

/-- All bytes generated, latest first. -/
def bytesOf (log : List Event) : List ByteEv :=
  log.filterMap fun
    | .byte q a v on => some (q, a, v, on)
    | _ => none

/-- No byte of pass 2 is put in the code directly behind a byte that was generated without CODE in force, or in
    pass 1. -/
def Clean (log : List Event) : Prop :=
  ∀ a v q a' v' on, [(2, a, v, true), (q, a', v', on)] <:+: bytesOf log → (q = 1 ∨ on = false) → a ≠ a' + 1

/-- Number of bytes generated with CODE in force, in both passes. -/
def codeCount (log : List Event) : Nat :=
  (bytesOf log).countP fun b => b.2.2.2

theorem codeOf_cons (p : Nat) (e : Event) (log : List Event) (h : ∀ q a v on, e ≠ .byte q a v on) :
    codeOf p (e :: log) = codeOf p log := by
  cases e with
  | byte q a v on => exact absurd rfl (h _ _ _ _)
  | _ => simp [codeOf]
theorem codeOf_byte (p q : Nat) (a : Word) (v : Byte) (on : Bool) (log : List Event) :
    codeOf p (.byte q a v on :: log) = codeOf p log ++ (if q = p ∧ on = true then [(a, v)] else []) := by
  unfold codeOf
  rw [List.reverse_cons, List.filterMap_append]
  congr 1
  by_cases h : q = p ∧ on = true <;> simp [h]
theorem bytesOf_cons (e : Event) (log : List Event) (h : ∀ q a v on, e ≠ .byte q a v on) :
    bytesOf (e :: log) = bytesOf log := by
  cases e with
  | byte q a v on => exact absurd rfl (h _ _ _ _)
  | _ => simp [bytesOf]
theorem bytesOf_byte (q : Nat) (a : Word) (v : Byte) (on : Bool) (log : List Event) :
    bytesOf (.byte q a v on :: log) = (q, a, v, on) :: bytesOf log := rfl

theorem Clean.tail {e : Event} {log : List Event} (h : Clean (e :: log)) : Clean log := by
  intro a v q a' v' on hi
  refine h a v q a' v' on (hi.trans ?_)
  cases e with
  | byte => exact (List.suffix_cons _ _).isInfix
  | _ => exact List.infix_refl _

/-- Blocks in the file, and the block being filled. -/
def blocksOf (recs : List Spec.Record) (c : Code) : List (Nat × List Nat) :=
  Spec.dataOf recs ++ [(c.rawstart.toNat % 2 ^ 32, c.raw.map BitVec.toNat)]

/-- The block being filled ends at the location counter. -/
def Joined (c : Code) : Prop := c.pc = c.rawstart + BitVec.ofNat 64 c.raw.length

def asStore (x : Word × Byte) : Nat × Nat := (x.1.toNat % 2 ^ 32, x.2.toNat)

/-- The records in an unfinished code file. -/
def GoodRecs (recs : List Spec.Record) : Prop :=
  ∀ r ∈ recs, r ≠ .eof ∧ ∀ a d, r = .data a d → 1 ≤ d.length ∧ d.length ≤ 16

/-- `recs` is what the file says, and with the block being filled it holds the code of `log`. -/
structure HoldsCode (log : List Event) (c : Code) (f : Str) (recs : List Spec.Record) : Prop where
  reads : Spec.readFile f = some recs
  upper : upperAfter 0 recs = c.rawextended.toNat / 65536
  good : GoodRecs recs
  values : ((blocksOf recs c).flatMap Prod.snd) = (codeOf 2 log).map fun x => x.2.toNat
  stores : Clean log → Spec.storesOf (blocksOf recs c) = (codeOf 2 log).map asStore

/-- Where the location counter is. -/
def Place (log : List Event) (c : Code) : Prop :=
  Joined c ∨ ∃ q a v on bs, bytesOf log = (q, a, v, on) :: bs ∧ (q = 1 ∨ on = false) ∧ c.pc = a + 1

structure CodeInv (n : Nat) (s : St) : Prop where
  le : n ≤ 2
  pass : s.passnumber = n
  early : n = 0 → s.flags.orgGv = false
  quiet : n ≤ 1 → s.flags.nocode = true
  never : s.flags.nocode = true → s.code.file = none
  passes : ∀ q a v on, (q, a, v, on) ∈ bytesOf s.log → 1 ≤ q ∧ q ≤ n
  count : s.code.codelen = BitVec.ofNat 64 (codeCount s.log)
  short : s.code.raw.length ≤ 16
  closed : s.code.file = none → s.code.raw = [] ∧ (s.flags.nocode = false → ∀ q a v on, (q, a, v, on) ∈ bytesOf s.log → q ≤ 1)
  opened : ∀ f, s.code.file = some f → ∃ recs, HoldsCode s.log s.code f recs
  place : Clean s.log → ¬ (n = 2 ∧ s.flags.nocode = true) → Place s.log s.code

theorem storesOf_append (a b : List (Nat × List Nat)) :
    Spec.storesOf (a ++ b) = Spec.storesOf a ++ Spec.storesOf b := by simp [Spec.storesOf]

theorem storesOf_block (a : Nat) (d : List Nat) (x : Nat) :
    Spec.storesOf [(a, d ++ [x])] = Spec.storesOf [(a, d)] ++ [((a + d.length) % 2 ^ 32, x)] := by
  simp [Spec.storesOf, List.zipIdx_append]

/-- Closing the block being filled. -/
theorem HoldsCode.flush {log : List Event} {c : Code} {f : Str} {recs : List Spec.Record} (h : HoldsCode log c f recs)
    (hf : c.file = some f) (hl : c.raw.length ≤ 16) (hex : Bool) (c' : Code) (hr : c'.raw = [])
    (hx : c'.rawextended = (c.flush hex).rawextended) :
    ∃ f' recs', (c.flush hex).file = some f' ∧ HoldsCode log c' f' recs' := by
  by_cases hn : c.raw = []
  · refine ⟨f, recs, by simp [Code.flush, hn, hf], h.reads, ?_, h.good, ?_, ?_⟩
    · rw [hx, h.upper]; simp [Code.flush, hn]
    · rw [← h.values]; simp [blocksOf, hn, hr]
    · intro hc
      rw [← h.stores hc]
      simp [blocksOf, hn, hr, Spec.storesOf]
  · obtain ⟨rg, h1, h2, h3⟩ := blockText_reads hex c.rawextended c.rawstart c.raw hl f recs h.reads h.upper
    have e1 : (c.flush hex).file = some (f ++ (blockText hex c.rawextended c.rawstart c.raw).1) := by
      simp [Code.flush, hn, Code.write, hf]
    have e2 : (c.flush hex).rawextended = (blockText hex c.rawextended c.rawstart c.raw).2 := by
      simp [Code.flush, hn]
    refine ⟨_, recs ++ rg, e1, h1, ?_, ?_, ?_, ?_⟩
    · rw [hx, e2]; exact h2
    · intro r hr
      rcases List.mem_append.1 hr with hr | hr
      · exact h.good r hr
      · have hd : 1 ≤ c.raw.length := by
          cases hc : c.raw with
          | nil => exact absurd hc hn
          | cons => simp
        cases h3 with
        | plain =>
          simp at hr; subst hr
          refine ⟨by simp, ?_⟩
          intro a d he
          cases he
          simp [nats]; omega
        | ext =>
          simp at hr
          rcases hr with rfl | rfl
          · simp
          · refine ⟨by simp, ?_⟩
            intro a d he
            cases he
            simp [nats]; omega
    · rw [← h.values]
      simp [blocksOf, dataOf_append, h3.dataOf, hr, nats]
    · intro hc
      rw [← h.stores hc]
      simp [blocksOf, dataOf_append, h3.dataOf, hr, nats, Spec.storesOf]

/-- Adding a byte to the block being filled, which is not full. -/
theorem HoldsCode.push {log : List Event} {c c' : Code} {f : Str} {recs : List Spec.Record} (h : HoldsCode log c f recs)
    {x : Byte} (h1 : c'.raw = c.raw ++ [x]) (h2 : c'.rawstart = c.rawstart) (h3 : c'.rawextended = c.rawextended)
    (hj : Clean (.byte 2 c.pc x true :: log) → Joined c) :
    HoldsCode (.byte 2 c.pc x true :: log) c' f recs := by
  refine ⟨h.reads, by rw [h3]; exact h.upper, h.good, ?_, ?_⟩
  · rw [codeOf_byte]
    have := h.values
    simp only [blocksOf, List.flatMap_append] at this
    simp [blocksOf, h1, ← this]
  · intro hc
    have hj := hj hc
    rw [codeOf_byte, List.map_append, ← h.stores hc.tail]
    simp only [blocksOf, storesOf_append, h1, h2, List.map_append, List.map_cons, List.map_nil, storesOf_block,
      List.append_assoc, List.append_cancel_left_eq, true_and, if_true, asStore, List.length_map]
    congr 2
    rw [hj]
    simp

theorem Clean.joined {log : List Event} {c : Code} {x : Byte} (hp : Place log c)
    (hc : Clean (.byte 2 c.pc x true :: log)) : Joined c := by
  rcases hp with h | ⟨q, a, v, on, bs, h1, h2, h3⟩
  · exact h
  · refine absurd h3 (hc c.pc x q a v on ?_ h2)
    rw [bytesOf_byte, h1]
    exact ⟨[], bs, by simp⟩

theorem CodeInv.emit {n : Nat} {s : St} (h : CodeInv n s) (x : Byte) (ho : s.flags.orgGv = true) :
    CodeInv n (emitSt s x) := by
  have hn : 1 ≤ n := by
    rcases Nat.eq_zero_or_pos n with h0 | h0
    · rw [h.early h0] at ho; cases ho
    · exact h0
  have count' : ∀ cl : Word, cl = s.code.codelen + (if s.flags.codeOn = true then 1 else 0) →
      cl = BitVec.ofNat 64 (codeCount (emitSt s x).log) := by
    rintro cl rfl
    rw [h.count]
    unfold codeCount emitSt
    rw [bytesOf_byte, List.countP_cons]
    cases s.flags.codeOn <;> simp [BitVec.ofNat_add]
  have passes' : ∀ q a v on, (q, a, v, on) ∈ bytesOf (emitSt s x).log → 1 ≤ q ∧ q ≤ n := by
    intro q a v on hm
    rcases List.mem_cons.1 hm with e | hm
    · cases e
      rw [h.pass]
      exact ⟨hn, Nat.le_refl _⟩
    · exact h.passes q a v on hm
  cases hk : s.flags.nocode with
  | true =>
    -- no code file
    have e0 : Code.opened s = s.code := by simp [Code.opened, hk]
    have hf := h.never hk
    have e1 : ∀ hex, s.code.push hex x = s.code := by intro hex; simp [Code.push, hf]
    have e2 : (emitSt s x).code = { s.code with pc := s.code.pc + 1, codelen := (emitSt s x).code.codelen } := by
      simp only [emitSt, Code.emitted, e0]
      split <;> simp [e1]
    refine ⟨h.le, h.pass, h.early, h.quiet, fun _ => by rw [e2]; exact hf, passes', count' _ ?_,
      by rw [e2]; exact h.short, fun _ => ⟨by rw [e2]; exact (h.closed hf).1, fun h0 => ?_⟩, fun f h0 => ?_,
      fun hc h2 => .inr ?_⟩
    · simp only [emitSt, Code.emitted, e0]
      split <;> simp
    · rw [show (emitSt s x).flags = s.flags from rfl, hk] at h0; cases h0
    · rw [e2] at h0; rw [hf] at h0; cases h0
    · have h2' : n = 1 := by
        have := h.le
        have : n ≠ 2 := fun e => h2 ⟨e, hk⟩
        omega
      refine ⟨s.passnumber, s.code.pc, x, s.flags.codeOn, bytesOf s.log, rfl, .inl (h.pass.trans h2'), ?_⟩
      rw [e2]
  | false =>
    have h2 : n = 2 := by
      have := h.le
      have : ¬ n ≤ 1 := fun e => by rw [h.quiet e] at hk; cases hk
      omega
    subst h2
    obtain ⟨c, hcdef⟩ : ∃ c, Code.opened s = c := ⟨_, rfl⟩
    have o1 : c.pc = s.code.pc ∧ c.raw = s.code.raw ∧ c.rawstart = s.code.rawstart ∧ c.codelen = s.code.codelen := by
      rw [← hcdef]; unfold Code.opened; split <;> exact ⟨rfl, rfl, rfl, rfl⟩
    have o2 : ∃ f recs, c.file = some f ∧ HoldsCode s.log c f recs := by
      cases hf : s.code.file with
      | some f =>
        obtain ⟨recs, hh⟩ := h.opened f hf
        have : c = s.code := by rw [← hcdef]; simp [Code.opened, hf]
        rw [this]
        exact ⟨f, recs, hf, hh⟩
      | none =>
        obtain ⟨h1, h2⟩ := h.closed hf
        have hb := h2 hk
        have he : c = { s.code with file := some [], rawextended := 0 } := by
          rw [← hcdef]; simp [Code.opened, hf, hk]
        have hz : codeOf 2 s.log = [] := by
          unfold codeOf
          rw [List.filterMap_eq_nil_iff]
          intro e hm
          cases e with
          | byte q a v on =>
            have hq : q ≤ 1 := by
              refine hb q a v on ?_
              unfold bytesOf
              rw [List.mem_filterMap]
              exact ⟨_, List.mem_reverse.1 hm, rfl⟩
            have : q ≠ 2 := by omega
            simp [this]
          | _ => rfl
        refine ⟨[], [], by rw [he], rfl, ?_, (fun r hr => by cases hr), ?_, ?_⟩
        · rw [he]; simp [upperAfter]
        · rw [hz, he]; simp [blocksOf, h1, Spec.dataOf]
        · rw [hz, he]; simp [blocksOf, h1, Spec.dataOf, Spec.storesOf]
    obtain ⟨f, recs, hf, hh⟩ := o2
    have hplace : Clean s.log → Place s.log c := by
      intro hc
      have := h.place hc (by simp [hk])
      unfold Place Joined at this ⊢
      rw [o1.1, o1.2.1, o1.2.2.1]
      exact this
    have hcode : (emitSt s x).code =
        { (if s.flags.codeOn then { c.push s.flags.codeHex x with codelen := c.codelen + 1 } else c) with
          pc := c.pc + 1 } := by
      simp only [emitSt, Code.emitted, hcdef]
      split
      · simp only [push_pc]
      · rfl
    have hlog : (emitSt s x).log = .byte 2 c.pc x s.flags.codeOn :: s.log := by
      simp [emitSt, h.pass, o1.1]
    have hflags : (emitSt s x).flags = s.flags := rfl
    have hcl : (emitSt s x).code.codelen = s.code.codelen + (if s.flags.codeOn = true then 1 else 0) := by
      rw [hcode, ← o1.2.2.2]; split <;> simp_all
    cases hon : s.flags.codeOn with
    | false =>
      rw [hon, if_neg (by simp)] at hcode
      rw [hon] at hlog
      refine ⟨h.le, h.pass, h.early, h.quiet, fun h0 => ?_, passes', count' _ hcl, ?_, fun h0 => ?_,
        fun f' h0 => ⟨recs, ?_⟩, fun _ _ => .inr ?_⟩
      · rw [hflags, hk] at h0; cases h0
      · rw [hcode]; show c.raw.length ≤ 16; rw [o1.2.1]; exact h.short
      · rw [hcode] at h0
        have h0 : c.file = none := h0
        rw [hf] at h0; cases h0
      · rw [hcode] at h0 ⊢
        have : f' = f := by
          have h0 : c.file = some f' := h0
          rw [hf] at h0; cases h0; rfl
        subst this
        rw [hlog]
        have hco : codeOf 2 (.byte 2 c.pc x false :: s.log) = codeOf 2 s.log := by simp [codeOf_byte]
        exact ⟨hh.reads, hh.upper, hh.good, by rw [hco]; exact hh.values,
          fun hc => by rw [hco]; exact hh.stores hc.tail⟩
      · rw [hlog, hcode]
        exact ⟨2, c.pc, x, false, bytesOf s.log, rfl, .inr rfl, rfl⟩
    | true =>
      simp only [hon, if_true] at hcode
      rw [hon] at hlog
      have hcl16 : c.raw.length ≤ 16 := by rw [o1.2.1]; exact h.short
      -- the block to which the byte goes
      have key : ∃ d f', (c.push s.flags.codeHex x) = { d with raw := d.raw ++ [x] } ∧ d.pc = c.pc ∧
          d.raw.length < 16 ∧ d.file = some f' ∧ (∃ recs, HoldsCode s.log d f' recs) ∧
          (Clean (.byte 2 c.pc x true :: s.log) → Joined d) := by
        by_cases hl : 16 ≤ c.raw.length
        · obtain ⟨f', recs', e1, e2⟩ := hh.flush hf hcl16 s.flags.codeHex (c.flush s.flags.codeHex) rfl rfl
          have hpc : (c.flush s.flags.codeHex).pc = c.pc := by
            simp only [Code.flush, Code.write]; split
            · rfl
            · split <;> rfl
          refine ⟨c.flush s.flags.codeHex, f', by simp [Code.push, hf, hl], hpc, ?_, e1, ⟨recs', e2⟩, fun _ => ?_⟩
          · show ([] : List Byte).length < 16
            simp
          · unfold Joined
            rw [hpc]
            have e3 : (c.flush s.flags.codeHex).rawstart = c.pc := by
              simp only [Code.flush, Code.write]; split
              · rfl
              · split <;> rfl
            rw [e3]
            show c.pc = c.pc + BitVec.ofNat 64 ([] : List Byte).length
            simp
        · exact ⟨c, f, by simp [Code.push, hf, hl], rfl, by omega, hf, ⟨recs, hh⟩,
            fun hc => hc.joined (hplace hc.tail)⟩
      obtain ⟨d, f', hp, hd1, hd2, hd3, ⟨recs', hd4⟩, hd5⟩ := key
      rw [hp] at hcode
      have hnew : HoldsCode (.byte 2 c.pc x true :: s.log) (emitSt s x).code f' recs' := by
        rw [← hd1] at hd5 ⊢
        refine hd4.push (c' := (emitSt s x).code) ?_ ?_ ?_ hd5 <;> rw [hcode]
      refine ⟨h.le, h.pass, h.early, h.quiet, fun h0 => ?_, passes', count' _ hcl, ?_, fun h0 => ?_,
        fun f'' h0 => ⟨recs', ?_⟩, fun hc _ => .inl ?_⟩
      · rw [hflags, hk] at h0; cases h0
      · rw [hcode]
        show (d.raw ++ [x]).length ≤ 16
        simp; omega
      · rw [hcode] at h0
        have h0 : d.file = none := h0
        rw [hd3] at h0; cases h0
      · have : f'' = f' := by
          rw [hcode] at h0
          have h0 : d.file = some f'' := h0
          rw [hd3] at h0; cases h0; rfl
        subst this
        rw [hlog]
        exact hnew
      · rw [hlog] at hc
        have hj := hd5 hc
        unfold Joined at hj ⊢
        rw [hcode]
        show c.pc + 1 = d.rawstart + BitVec.ofNat 64 (d.raw ++ [x]).length
        rw [← hd1, hj, List.length_append, BitVec.ofNat_add, BitVec.add_assoc]
        rfl

theorem CodeInv.keep {n : Nat} {s s' : St} (h : CodeInv n s) (h1 : s'.passnumber = s.passnumber)
    (h2 : s'.flags.nocode = s.flags.nocode) (h3 : n = 0 → s'.flags.orgGv = false) (h4 : s'.code = s.code)
    (h5 : s'.log = s.log ∨ ∃ e, s'.log = e :: s.log ∧ ∀ q a v on, e ≠ .byte q a v on) : CodeInv n s' := by
  have b1 : bytesOf s'.log = bytesOf s.log := by
    rcases h5 with h5 | ⟨e, h5, h6⟩
    · rw [h5]
    · rw [h5, bytesOf_cons e _ h6]
  have b2 : codeOf 2 s'.log = codeOf 2 s.log := by
    rcases h5 with h5 | ⟨e, h5, h6⟩
    · rw [h5]
    · rw [h5, codeOf_cons 2 e _ h6]
  have b3 : Clean s'.log ↔ Clean s.log := by unfold Clean; rw [b1]
  refine ⟨h.le, h1.trans h.pass, h3, h2 ▸ h.quiet, by rw [h2, h4]; exact h.never, by rw [b1]; exact h.passes,
    by rw [h4, codeCount, b1]; exact h.count, by rw [h4]; exact h.short, by rw [h4, h2, b1]; exact h.closed,
    fun f hf => ?_, fun hc => ?_⟩
  · rw [h4] at hf
    obtain ⟨recs, hh⟩ := h.opened f hf
    exact ⟨recs, hh.reads, by rw [h4]; exact hh.upper, hh.good, by rw [h4, b2]; exact hh.values,
      fun hc => by rw [h4, b2]; exact hh.stores (b3.1 hc)⟩
  · have := h.place (b3.1 hc)
    unfold Place at this ⊢
    rw [h4, h2, b1]
    exact this

theorem CodeInv.setpc {n : Nat} {s s' : St} (h : CodeInv n s) (h0 : 1 ≤ n) {hex : Bool} {a : Word}
    (h1 : s'.passnumber = s.passnumber) (h2 : s'.flags.nocode = s.flags.nocode)
    (h4 : s'.code = { s.code.flush hex with rawstart := a, pc := a, raw := [] })
    (h5 : s'.log = s.log) : CodeInv n s' := by
  have hfile : s.code.file = none → s'.code.file = none := by
    intro hf
    rw [h4]
    simp [Code.flush, (h.closed hf).1, hf]
  have hfile' : ∀ f, s.code.file = some f → ∃ f' recs, s'.code.file = some f' ∧ HoldsCode s'.log s'.code f' recs := by
    intro f hf
    obtain ⟨recs, hh⟩ := h.opened f hf
    obtain ⟨f', recs', e1, e2⟩ := hh.flush hf h.short hex s'.code (by rw [h4]) (by rw [h4])
    exact ⟨f', recs', by rw [h4]; exact e1, by rw [h5]; exact e2⟩
  refine ⟨h.le, h1.trans h.pass, by omega, h2 ▸ h.quiet, fun hk => hfile (h.never (h2 ▸ hk)), by rw [h5]; exact h.passes,
    ?_, by rw [h4]; simp, fun hf => ⟨by rw [h4], ?_⟩, fun f' hf' => ?_, fun _ _ => .inl ?_⟩
  · rw [h4, h5, ← h.count]
    simp only [Code.flush, Code.write]
    split
    · rfl
    · split <;> rfl
  · rw [h2, h5]
    refine (h.closed ?_).2
    cases hf0 : s.code.file with
    | none => rfl
    | some f =>
      obtain ⟨f', _, e, -⟩ := hfile' f hf0
      rw [e] at hf; cases hf
  · cases hf0 : s.code.file with
    | none => rw [hfile hf0] at hf'; cases hf'
    | some f =>
      obtain ⟨f'', recs, e, e2⟩ := hfile' f hf0
      rw [e] at hf'; cases hf'
      exact ⟨recs, e2⟩
  · rw [h4]; simp [Joined]

theorem pstep_src {a b : Cfg} (h : PStep a b) : a.2 ≠ .dead := by
  cases h with
  | h h =>
    cases h with
    | n h => cases h <;> simp
    | _ => simp
  | _ => simp
theorem step_src {a b : Cfg} (h : Step a b) : a.2 ≠ .dead := by
  cases h with
  | p h => exact pstep_src h
  | _ => simp

theorem codeInv_pstep {n : Nat} {a b : Cfg} (h : PStep a b) (hb : b.2 ≠ .dead) (ha : CodeInv n a.1) : CodeInv n b.1 := by
  cases h with
  | h h =>
    cases h with
    | n h =>
      cases h with
      | error0 s h => exact ha.keep rfl rfl ha.early rfl (.inr ⟨_, rfl, by simp⟩)
      | error1 s t h hb => exact ha.keep rfl rfl ha.early rfl (.inr ⟨_, rfl, by simp⟩)
      | die => exact absurd rfl hb
      | _ => exact ha.keep rfl rfl ha.early rfl (.inl rfl)
    | emit s x ho => exact ha.emit x ho
    | note s => exact ha.keep rfl rfl ha.early rfl (.inl rfl)
    | lohi s => exact ha.keep rfl rfl ha.early rfl (.inl rfl)
  | flags s f c hf => exact ha.keep rfl hf.2.2.2.2.2.1 (fun h => hf.1.trans (ha.early h)) rfl (.inl rfl)
  | push s src hd => exact ha.keep rfl rfl ha.early rfl (.inr ⟨_, rfl, by simp⟩)
  | _ => exact ha.keep rfl rfl ha.early rfl (.inl rfl)

theorem codeInv_step {n : Nat} {a b : Cfg} (h : Step a b) (hb : b.2 ≠ .dead) (hn : 1 ≤ n) (ha : CodeInv n a.1) : CodeInv n b.1 := by
  have h0 : ∀ {p : Prop}, n = 0 → p := fun e => by omega
  cases h with
  | p h => exact codeInv_pstep h hb ha
  | call s src hd => exact ha.keep rfl rfl h0 rfl (.inr ⟨_, rfl, by simp⟩)
  | readMain s hs => exact ha.keep rfl rfl h0 rfl (.inr ⟨_, rfl, by simp⟩)
  | readFile s => exact ha.keep rfl rfl h0 rfl (.inr ⟨_, rfl, by simp⟩)
  | readMacro s => exact ha.keep rfl rfl h0 rfl (.inr ⟨_, rfl, by simp⟩)
  | start1 s hu =>
    by_cases hp : (starLabel s).value ≠ s.code.pc
    · exact ha.setpc hn rfl rfl (by simp only [if_pos hp]; rfl) rfl
    · exact ha.keep rfl rfl h0 (by simp only [if_neg hp]) (.inl rfl)
  | _ => exact ha.keep rfl rfl h0 rfl (.inl rfl)

theorem codeInv_reach {o : Opts} {env : Env} {src : Str} {n : Nat} {c : Cfg}
    (h : Reach o (initSt env src) n c) (hd : c.2 ≠ .dead) : CodeInv n c.1 := by
  induction h with
  | init h =>
    refine h.inv (P := fun c => c.2 ≠ .dead → CodeInv 0 c.1) (fun _ _ h ha hb => codeInv_pstep h hb (ha (pstep_src h))) ?_ hd
    intro _
    exact ⟨by omega, rfl, fun _ => rfl, fun _ => rfl, fun _ => rfl, (fun _ _ _ _ h => by cases h), rfl,
      by simp [initSt], fun _ => ⟨rfl, fun _ _ _ _ _ h => by cases h⟩, (fun f h => by cases h), fun _ _ => .inl rfl⟩
  | pass1 hA h ih =>
    refine h.inv (P := fun c => c.2 ≠ .dead → CodeInv 1 c.1) (fun _ _ h ha hb => codeInv_step h hb (by omega) (ha (step_src h))) ?_ hd
    intro _
    have ih := ih (by simp)
    refine ⟨by omega, rfl, by omega, fun _ => ih.quiet (by omega), fun h => ih.never h, ?_, ih.count, ih.short, ?_, ?_, ?_⟩
    · intro q a v on hm
      have := ih.passes q a v on hm
      omega
    · exact ih.closed
    · exact fun f hf => by
        rw [show (passStart 1 _).code.file = _ from ih.never (ih.quiet (by omega))] at hf; cases hf
    · exact fun hc _ => ih.place hc (by omega)
  | pass2 hB h ih =>
    refine h.inv (P := fun c => c.2 ≠ .dead → CodeInv 2 c.1) (fun _ _ h ha hb => codeInv_step h hb (by omega) (ha (step_src h))) ?_ hd
    intro _
    have ih := ih (by simp)
    have hf0 := ih.never (ih.quiet (by omega))
    refine ⟨by omega, rfl, by omega, by omega, fun _ => hf0, ?_, ih.count, ih.short, ?_, ?_, ?_⟩
    · intro q a v on hm
      have := ih.passes q a v on hm
      omega
    · exact fun h => ⟨(ih.closed hf0).1, fun _ q a v on hm => (ih.passes q a v on hm).2⟩
    · exact fun f hf => by
        rw [show (passStart 2 (betweenPasses _ _)).code.file = _ from hf0] at hf; cases hf
    · exact fun hc _ => ih.place hc (by omega)

end Crasm
