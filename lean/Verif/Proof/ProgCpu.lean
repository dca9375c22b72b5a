import Verif.Proof.ProgRun
import Verif.Proof.Fields
import Verif.Proof.Words
import Verif.Proof.Ends

/-! Programs: the line that chooses the processor, in both passes. -/

namespace Crasm.C42
open Spec.Program (Isa key Free Body Line State Lines Proper All2 labels hasOrg)

/-! ### The line -/

/-- Characters that are not changed by turning them into capitals. -/
theorem plain_chars {w k : Str} (h : key w = k) {bad : List Char} (hb : ∀ c ∈ bad, c.toUpper ∉ k) : ∀ c ∈ w, c ∉ bad := by
  intro c hc hm
  refine hb c hm ?_
  rw [← h]
  exact List.mem_map_of_mem hc

/-- The characters that matter in splitting a line. -/
def marks : List Char := [' ', '\t', '\'', '"', '(', ')', ';', '=']

/-- Words without any of them. -/
def Mild (k : Str) : Prop := k ≠ [] ∧ ∀ c ∈ marks, c.toUpper ∉ k
instance (k : Str) : Decidable (Mild k) := inferInstanceAs (Decidable (_ ∧ _))

theorem mild_word {w k : Str} (h : key w = k) (hk : Mild k) : Spec.Word w :=
  ⟨by rintro rfl; exact hk.1 h.symm, plain_chars h hk.2⟩

theorem bal_flat {ok : Char → Bool} {w : Str} (h : ∀ c ∈ w, c ∉ ['\'', '"', '(', ')'] ∧ ok c = true) : Spec.Bal ok w := by
  induction w with
  | nil => exact .nil _
  | cons c w ih =>
    have := h c (by simp)
    simp only [List.mem_cons, List.mem_nil_iff, or_false, not_or] at this
    exact .plain _ c w this.1.1 this.1.2.1 this.1.2.2.1 this.1.2.2.2 this.2 (ih fun d hd => h d (by simp [hd]))

theorem mild_field {w k : Str} (h : key w = k) (hk : Mild k) : Spec.Field w ∧ w.head? ≠ some '=' := by
  obtain ⟨h1, h2⟩ := mild_word h hk
  have hb : ∀ c, Spec.IsBlank c → c ∈ [' ', '\t', '\'', '"', '(', ')', ';', '='] := by
    rintro c (rfl | rfl) <;> simp
  refine ⟨⟨bal_flat fun c hc => ?_, h1, fun c r e hc => ?_, fun c r e hc => ?_⟩, fun e => ?_⟩
  · have := h2 c hc
    simp only [List.mem_cons, List.mem_nil_iff, or_false, not_or] at this ⊢
    exact ⟨⟨this.2.2.1, this.2.2.2.1, this.2.2.2.2.1, this.2.2.2.2.2.1⟩, by simp [this.2.2.2.2.2.2.1]⟩
  · exact h2 c (by rw [e]; simp) (hb c hc)
  · exact h2 c (by rw [e]; simp) (hb c hc)
  · cases w with
    | nil => cases e
    | cons c w => injection e with e; subst e; exact h2 '=' (by simp) (by simp)

/-- The processor of that name. -/
def cpuOf (name : Str) : Option Cpu := (cpulist.find? fun x => x.1 = name).map (·.2)

theorem findCpu_run {o : Str} {s : St} (hb : s.bufpos < bufSize) : ∀ cs : List (Str × Cpu), (∀ x ∈ cs, Word1 x.1 ∧ x.1.map toupper = x.1) →
    findCpu o cs s = .ok ((cs.find? fun x => x.1 = key o).map (·.2)) s := by
  intro cs
  induction cs with
  | nil => intro _; rfl
  | cons x cs ih =>
    intro h
    obtain ⟨n, c⟩ := x
    obtain ⟨h1, h2⟩ := h (n, c) (by simp)
    unfold findCpu
    rw [bind_run, filter0_word h1, if_neg (by omega)]
    have h2 : n.map toupper = n := h2
    dsimp only
    rw [h2, up_key]
    by_cases e : key o = n
    · rw [decide_eq_true e, if_pos rfl, List.find?_cons_of_pos (by simp [e])]
      rfl
    · rw [decide_eq_false e, if_neg (by decide), List.find?_cons_of_neg (by simpa using fun h => e h.symm)]
      exact ih fun x hx => h x (by simp [hx])

/-- The word CPU. -/
def cpuEntry : Entry := pseudoEntry c!"CPU" { nolabel := true } .cpu

/-- What is done once the processor is known. -/
def choose (c : Cpu) : M Unit := do
  let s ← getS
  if s.flags.cpuGv then error c!"One CPU only!"
  else do
    whenM (s.passnumber = 2) (modFlags fun f => { f with cpuGv := true })
    c.init

def afterwards : M RC := do
  bumpStar
  outputline
  pure .cont

theorem afterwards_calm (s t : St) : afterwards s ≠ .err t := by
  intro h
  unfold afterwards at h
  rw [bind_run] at h
  cases e : bumpStar s with
  | err s' =>
    unfold bumpStar at e
    rw [getS_bind_run] at e
    revert e
    cases addS (starLabel s).value (BitVec.ofInt 64 s.advance) <;> intro e <;> cases e
  | stop w s' => rw [e] at h; cases h
  | ok u s1 =>
    rw [e] at h
    have h : (outputline >>= fun _ => pure .cont : M RC) s1 = .err t := h
    rw [bind_run] at h
    have q := (inferInstance : Quiet outputline).run s1
    cases e2 : outputline s1 with
    | err s' => rw [e2] at q; exact q.elim
    | stop w s' => rw [e2] at h; cases h
    | ok u s2 => rw [e2] at h; cases h

theorem afterwards_cont (s : St) (rc : RC) (t : St) (h : afterwards s = .ok rc t) : rc = .cont := by
  unfold afterwards at h
  obtain ⟨_, _, _, h⟩ := bind_ok h
  obtain ⟨_, _, _, h⟩ := bind_ok h
  cases h
  rfl

theorem cpu_line {n : Nat} {s : St} {m b o name : Str} {c : Cpu} (hseg : s.segment = 0) (hw : ∃ l, s.tree.find c!"CPU" = some l ∧ AsWord cpuEntry.label l)
    (hlen : s.curline.length ≤ 600) (hA : Spec.Around (m ++ (b ++ o)) s.curline) (hg : Spec.Gap b) (hm : key m = c!"CPU") (ho : key o = name)
    (hmild : Mild name) (hc : cpuOf name = some c) :
    ∃ s1, Split s s1 ∧ s1.notes = s.notes ∧ asmline (n + 1) ⟨true, true⟩ s = (choose c >>= fun _ => afterwards) s1 := by
  obtain ⟨l, hl, hw⟩ := hw
  have hsl : searchlabel s m = some l ∧ canon 0 m = c!"CPU" := by
    have hcan : canon 0 m = c!"CPU" := by
      rw [canon_key, hm]
      · have := congrArg List.length hm
        have : m.length = 3 := by simpa [key] using this
        rw [this]; decide
      · rw [hm]; decide
    unfold searchlabel
    rw [hseg, hcan, hl]
    exact ⟨rfl, rfl⟩
  have hent : entryOf s m = some (c!"CPU", l) := by
    unfold entryOf
    rw [hsl.1, hseg, hsl.2]
    unfold usable
    dsimp only
    rw [hw.2.2.2.1, hw.1]
    rfl
  obtain ⟨f1, f2⟩ := mild_field ho hmild
  obtain ⟨s1, hs, hnt, h1⟩ := line_plain (n := n) (st := ⟨true, true⟩)
    (.oper (mild_word hm (by decide)) hg f1 f2 (by unfold C41.Known; rw [hent]; rfl)) hA hlen (.inl (by rw [hsl.1]; simp))
  refine ⟨s1, hs, hnt, ?_⟩
  have hb : s1.bufpos < bufSize := by
    obtain ⟨x, cl, nts, rfl, h, -⟩ := hs
    show x < 4000
    omega
  rw [h1, hent]
  obtain ⟨w1, w2, w3, w4, w5, w6, w7, w8, -⟩ := hw
  have w5 : l.flags.nolabel = true := w5
  have w6 : l.flags.deflabel = false := w6
  have w7 : l.flags.defmacro = false := w7
  have w8 : l.flags.defcond = false := w8
  have w3 : l.ptr = .handler (.pseudo .cpu) := w3
  have w1 : l.type = .mnemo := w1
  unfold doFields
  dsimp only
  rw [if_neg (by simp)]
  rw [show whenM (l.flags.deflabel = true) (error c!"label required here") = pure () by rw [w6]; rfl]
  rw [bind_run, pure_run]
  dsimp only
  unfold execLine
  rw [w7, w8, w1, w3, if_neg (by decide), if_neg (by decide), if_pos rfl]
  have hx : xCpu (some o) s1 = choose c s1 := by
    unfold xCpu choose
    dsimp only
    rw [getS_bind_run, getS_bind_run]
    by_cases hgv : s1.flags.cpuGv = true
    · rw [if_pos hgv, if_pos hgv]
    · rw [if_neg hgv, if_neg hgv, bind_run, findCpu_run hb cpulist (by decide)]
      have : (cpulist.find? fun x => x.1 = key o).map (·.2) = some c := by rw [ho]; exact hc
      rw [this]
  have hy : callHandler (asmline n) n (.pseudo .cpu) l.modifier none (some o) s1 = (choose c >>= fun _ => pure RC.cont) s1 := by
    show (xCpu (some o) >>= fun _ => pure RC.cont) s1 = _
    rw [bind_run, bind_run, hx]
  show ((callHandler (asmline n) n (.pseudo .cpu) l.modifier none (some o) >>= fun _ => pure ()) >>= fun _ => afterwards) s1 = _
  rw [bind_run, bind_run, bind_run, hy, bind_run]
  cases choose c s1 <;> rfl

/-! ### The vocabulary -/

/-- Several tables. -/
def inits : List TableId → M Unit
  | [] => pure ()
  | t :: ts => initLabelList t (tableOf t) >>= fun _ => inits ts

/-- The keys of the entries visited. -/
def keysOf (es : List Entry) (is : List Nat) : List Str := is.filterMap fun i => es[i - 1]?.map fun e => canon 0 e.name

def wordsOf (tabs : List TableId) : List Str := tabs.flatMap fun t => keysOf (tableOf t) (visitOrder (tableOf t).length)

def bindsFresh : List TableId → Tree → Option Tree
  | [], T => some T
  | t :: ts, T => (bindFresh t (tableOf t) (visitOrder (tableOf t).length) T).bind (bindsFresh ts)

theorem inits_fresh (tabs : List TableId) : ∀ (s : St) (T : Tree), s.segment = 0 → bindsFresh tabs s.tree = some T →
    inits tabs s = .ok () { s with tree := T } := by
  induction tabs with
  | nil => intro s T _ h; cases h; rfl
  | cons t ts ih =>
    intro s T hs h
    unfold bindsFresh at h
    obtain ⟨T1, h1, h2⟩ := Option.bind_eq_some_iff.1 h
    unfold inits initLabelList
    rw [bind_run, bindAll_fresh t _ _ s T1 hs h1]
    exact ih { s with tree := T1 } T hs h2

/-- Back to life. -/
def live (l : Label) : Label := { l with flags := { l.flags with undef := false } }

theorem bindAll_old (t : TableId) (es : List Entry) (is : List Nat) : ∀ s : St, s.segment = 0 → (keysOf es is).Nodup →
    (∀ k ∈ keysOf es is, ∃ q, s.tree.find k = some q ∧ q.origin = some t ∧ q.flags.undef = true) →
    ∃ T, bindAll t es is s = .ok () { s with tree := T } ∧ ∀ k, T.find k = (s.tree.find k).map fun l => if k ∈ keysOf es is then live l else l := by
  induction is with
  | nil =>
    intro s _ _ _
    refine ⟨s.tree, rfl, fun k => ?_⟩
    simp [keysOf]
  | cons i is ih =>
    intro s hs hn hq
    unfold bindAll
    cases he : es[i - 1]? with
    | none =>
      have e : keysOf es (i :: is) = keysOf es is := by unfold keysOf; rw [List.filterMap_cons, he]; rfl
      rw [e] at hn hq ⊢
      exact ih s hs hn hq
    | some e =>
      have e' : keysOf es (i :: is) = canon 0 e.name :: keysOf es is := by unfold keysOf; rw [List.filterMap_cons, he]; rfl
      rw [e'] at hn hq ⊢
      obtain ⟨q, q1, q2, q3⟩ := hq _ List.mem_cons_self
      obtain ⟨n1, n2⟩ := List.nodup_cons.1 hn
      have hrun : bindOne t e s = .ok () (s.putL (canon 0 e.name) (live q)) := by
        unfold bindOne
        rw [getS_bind_run, show canon s.segment e.name = canon 0 e.name by rw [hs]]
        dsimp only
        rw [q1]
        dsimp only
        rw [if_pos ⟨q2, q3⟩]
        rfl
      obtain ⟨T, h1, h2⟩ := ih (s.putL (canon 0 e.name) (live q)) hs n2 fun k hk => by
        obtain ⟨q', g1, g2, g3⟩ := hq k (List.mem_cons_of_mem _ hk)
        refine ⟨q', ?_, g2, g3⟩
        show (s.tree.put _ _).find k = _
        rw [Tree.find_put_ne _ _ fun e => n1 (by rw [← e]; exact hk)]
        exact g1
      refine ⟨T, ?_, fun k => ?_⟩
      · dsimp only
        rw [bind_run, hrun]
        exact h1
      · rw [h2 k]
        show ((s.tree.put _ _).find k).map _ = _
        by_cases ek : k = canon 0 e.name
        · subst ek
          rw [Tree.find_put_self, q1]
          simp [n1]
        · rw [Tree.find_put_ne _ _ ek]
          simp [ek]

theorem inits_old (tabs : List TableId) : ∀ s : St, s.segment = 0 → (wordsOf tabs).Nodup →
    (∀ t ∈ tabs, ∀ k ∈ keysOf (tableOf t) (visitOrder (tableOf t).length), ∃ q, s.tree.find k = some q ∧ q.origin = some t ∧ q.flags.undef = true) →
    ∃ T, inits tabs s = .ok () { s with tree := T } ∧ ∀ k, T.find k = (s.tree.find k).map fun l => if k ∈ wordsOf tabs then live l else l := by
  induction tabs with
  | nil =>
    intro s _ _ _
    refine ⟨s.tree, rfl, fun k => ?_⟩
    simp [wordsOf]
  | cons t ts ih =>
    intro s hs hn hq
    have e : wordsOf (t :: ts) = keysOf (tableOf t) (visitOrder (tableOf t).length) ++ wordsOf ts := by unfold wordsOf; rw [List.flatMap_cons]
    rw [e] at hn ⊢
    obtain ⟨n1, n2, n3⟩ := List.nodup_append.1 hn
    obtain ⟨T, h1, h2⟩ := bindAll_old t (tableOf t) _ s hs n1 (hq t (by simp))
    obtain ⟨T', h3, h4⟩ := ih { s with tree := T } hs n2 fun u hu k hk => by
      obtain ⟨q, q1, q2, q3⟩ := hq u (by simp [hu]) k hk
      refine ⟨q, ?_, q2, q3⟩
      have hk' : k ∈ wordsOf ts := List.mem_flatMap.2 ⟨u, hu, hk⟩
      show T.find k = _
      rw [h2 k, q1, Option.map_some, if_neg fun h => n3 k h k hk' rfl]
    refine ⟨T', ?_, fun k => ?_⟩
    · unfold inits initLabelList
      rw [bind_run, h1]
      exact h3
    · rw [h4 k]
      show (T.find k).map _ = _
      rw [h2 k]
      cases s.tree.find k with
      | none => rfl
      | some l =>
        simp only [Option.map_some, List.mem_append]
        by_cases a : k ∈ keysOf (tableOf t) (visitOrder (tableOf t).length)
        · by_cases b : k ∈ wordsOf ts <;> simp [a, b, live]
        · by_cases b : k ∈ wordsOf ts <;> simp [a, b, live]

/-- The symbol table at the start of pass 1. -/
def startTree : Tree := pseudoTree.put starKey { flags := { undef := true, used := true }, type := .absolute }

theorem start_eq (env : Env) (src : Str) : (passStart 1 { initSt env src with tree := pseudoTree }).tree = startTree := by
  have h : pseudoTree.find starKey = none := by decide +kernel
  unfold passStart startTree
  dsimp only
  rw [h]
  rfl

/-- What the choice of a processor does. -/
structure Chosen (c : Cpu) (tabs : List TableId) (f : Flags → Flags) (voc : List Entry) (cf : Option Int) (little : Bool) : Prop where
  init : ∀ s, c.init s = inits tabs { s with cpuflag := cf.getD s.cpuflag, flags := f s.flags }
  flags : ∀ g, (f g).lohi = little ∧ (f g).relatif = false ∧ (f g).codeOn = g.codeOn
  fresh : (bindsFresh tabs startTree).isSome = true
  found : ∀ t ∈ tabs, ∀ e ∈ tableOf t, ((bindsFresh tabs startTree).getD .leaf).find (canon 0 e.name) = some { e.label with origin := some t }
  nodup : (wordsOf tabs).Nodup
  all : ∀ t ∈ tabs, ∀ e ∈ tableOf t, canon 0 e.name ∈ wordsOf tabs
  entry : ∀ e ∈ voc, ∃ t ∈ tabs, e ∈ tableOf t
  back : ∀ t ∈ tabs, ∀ e ∈ tableOf t, e ∈ voc
  good : ∀ t ∈ tabs, t ≠ .pseudos ∧ ∀ e ∈ tableOf t, canon 0 e.name = e.name.map toupper ∧ e.label.flags.noredef = true ∧
    e.label.flags.undef = false ∧ e.label.type ≠ .macro ∧ canon 0 e.name ≠ starKey
  first : ∀ t ∈ tabs, ∀ e ∈ tableOf t, e.label.flags.forward = false

/-- The source, as far as the first line. -/
structure Opening (name : Str) (src : Str) (rest : List Str) (first m b o : Str) : Prop where
  lines : Spec.lines src = first :: rest
  around : Spec.Around (m ++ (b ++ o)) first
  gap : Spec.Gap b
  mnemo : key m = c!"CPU"
  oper : key o = name

instance (a b : Label) : Decidable (AsWord a b) := inferInstanceAs (Decidable (_ ∧ _))

theorem word_start : ∀ e ∈ pseudos, e.name.map toupper = e.name ∧ ∃ l, startTree.find e.name = some l ∧ AsWord e.label l ∧
    l.flags.noredef = true ∧ l.type ≠ .macro ∧ l.origin = some .pseudos ∧ e.name ≠ starKey ∧ l.flags.forward = false := by
  have h : ∀ e ∈ pseudos, e.name.map toupper = e.name ∧ (startTree.find e.name).isSome = true ∧ AsWord e.label ((startTree.find e.name).getD {}) ∧
    ((startTree.find e.name).getD {}).flags.noredef = true ∧ ((startTree.find e.name).getD {}).type ≠ .macro ∧
    ((startTree.find e.name).getD {}).origin = some .pseudos ∧ e.name ≠ starKey ∧ ((startTree.find e.name).getD {}).flags.forward = false := by decide +kernel
  intro e he
  obtain ⟨h1, h2, h3⟩ := h e he
  obtain ⟨l, hl⟩ := Option.isSome_iff_exists.1 h2
  rw [hl] at h3
  exact ⟨h1, l, hl, h3⟩

/-- The vocabulary, and what was there before. -/
theorem bindFresh_find (t : TableId) (es : List Entry) (is : List Nat) : ∀ {T0 T : Tree}, bindFresh t es is T0 = some T → ∀ k,
    (∀ l, T0.find k = some l → T.find k = some l) ∧ ∀ l, T.find k = some l → T0.find k = some l ∨ k ∈ keysOf es is := by
  induction is with
  | nil => intro T0 T h k; cases h; exact ⟨fun _ h => h, fun _ h => .inl h⟩
  | cons i is ih =>
    intro T0 T h k
    unfold bindFresh at h
    have hk : keysOf es (i :: is) = (match es[i - 1]? with | none => keysOf es is | some e => canon 0 e.name :: keysOf es is) := by
      unfold keysOf
      rw [List.filterMap_cons]
      cases es[i - 1]? <;> rfl
    rw [hk]
    cases he : es[i - 1]? with
    | none => rw [he] at h; exact ih h k
    | some e =>
      rw [he] at h
      dsimp only at h ⊢
      cases hf : T0.find (canon 0 e.name) with
      | some l => rw [hf] at h; cases h
      | none =>
        rw [hf] at h
        obtain ⟨h1, h2⟩ := ih h k
        by_cases ek : k = canon 0 e.name
        · subst ek
          refine ⟨fun l hl => ?_, fun l _ => .inr List.mem_cons_self⟩
          rw [hf] at hl
          cases hl
        · rw [Tree.find_put_ne _ _ ek] at h1 h2
          exact ⟨h1, fun l hl => (h2 l hl).imp_right (List.mem_cons_of_mem _)⟩

theorem bindsFresh_find (tabs : List TableId) : ∀ {T0 T : Tree}, bindsFresh tabs T0 = some T → ∀ k,
    (∀ l, T0.find k = some l → T.find k = some l) ∧ ∀ l, T.find k = some l → T0.find k = some l ∨ k ∈ wordsOf tabs := by
  induction tabs with
  | nil => intro T0 T h k; cases h; exact ⟨fun _ h => h, fun _ h => .inl h⟩
  | cons t ts ih =>
    intro T0 T h k
    unfold bindsFresh at h
    obtain ⟨T1, h1, h2⟩ := Option.bind_eq_some_iff.1 h
    obtain ⟨a1, a2⟩ := bindFresh_find t _ _ h1 k
    obtain ⟨b1, b2⟩ := ih h2 k
    have hw : wordsOf (t :: ts) = keysOf (tableOf t) (visitOrder (tableOf t).length) ++ wordsOf ts := rfl
    rw [hw]
    refine ⟨fun l hl => b1 l (a1 l hl), fun l hl => ?_⟩
    rcases b2 l hl with h | h
    · exact (a2 l h).imp_right (List.mem_append_left _)
    · exact .inr (List.mem_append_right _ h)

/-- Pass 1 begins with putting the vocabulary in place. -/
theorem first_front {fuel : Nat} {env : Env} {src : Str} {e : St} {rest : List Str} {first m b o name : Str} {c : Cpu} {tabs : List TableId} {f : Flags → Flags}
    {voc : List Entry} {cf : Option Int} {little : Bool} (C : Chosen c tabs f voc cf little) (hn : cpuOf name = some c) (hmild : Mild name)
    (S : Opening name src rest first m b o) (ht : Spec.Tame src)
    (h : passLoop fuel fuel true (passStart 1 { initSt env src with tree := pseudoTree }) = .ok () e) :
    ∃ n s, fuel = n + 1 ∧ bindsFresh tabs startTree = some s.tree ∧ s.segment = 0 ∧ s.passnumber = 1 ∧ s.stack = [] ∧ s.notes = [] ∧
      s.flags.codeOn = true ∧ s.flags.relatif = false ∧ (∀ s', s'.main = s.main → s'.mainEof = s.mainEof → Rest s' rest) ∧
      (s.flags.lohi = little ∧ (∀ k ∈ cf, s.cpuflag = k) ∧ s.advance = 0 ∧ bytesOf s.log = [] ∧ s.lst.pages = [] ∧ s.linenumber = 1) ∧
      (catchErr (do (afterwards >>= fun r => whenM (r ≠ .cont) (error c!"ELSE, ENDC, ENDM, EXITM illegal here")); pure true)
        (do bumpErr; pure false) >>= fun a => passLoop (n + 1) n a) s = .ok () e := by
  cases fuel with
  | zero => cases h
  | succ n =>
  have hst := start_eq env src
  revert h hst
  generalize hs : passStart 1 { initSt env src with tree := pseudoTree } = s
  intro h hst
  have f1 : s.stack = [] := by rw [← hs]; rfl
  have f2 : s.mainEof = false := by rw [← hs]; rfl
  have f3 : Rest s (first :: rest) := by
    rw [← hs]
    exact ⟨ht, (fun h => by cases h), S.lines⟩
  have f4 : s.segment = 0 := by rw [← hs]; rfl
  have f5 : s.flags.cpuGv = false := by rw [← hs]; rfl
  have f6 : s.passnumber = 1 := by rw [← hs]; rfl
  have f7 : s.notes = [] := by rw [← hs]; rfl
  have f8 : s.flags.codeOn = true := by rw [← hs]; rfl
  rw [passLoop_round (by rw [f2]; decide)] at h
  obtain ⟨mn, eo, k1, k2, k3⟩ := linegets_ok f1 f3
  obtain ⟨w1, l1, w2, w3, -⟩ := word_start cpuEntry (by unfold pseudos cpuEntry; simp)
  obtain ⟨s1, hS, hnt, g1⟩ := cpu_line (n := n) (s := { s with curline := first, linenumber := s.linenumber + 1, log := .line s.passnumber 0 first :: s.log, main := mn, mainEof := eo })
    f4 ⟨l1, by rw [← w2, ← hst]; rfl, w3⟩ (by show first.length ≤ 600; omega) S.around S.gap S.mnemo S.oper hmild hn
  have r1 : s1.tree = startTree ∧ s1.segment = 0 ∧ s1.flags.cpuGv = false ∧ s1.passnumber = 1 ∧ s1.stack = [] ∧ s1.flags.codeOn = true ∧
      s1.main = mn ∧ s1.mainEof = eo := by
    obtain ⟨b, cl, nts, rfl, -, -⟩ := hS
    exact ⟨hst, f4, f5, f6, f1, f8, rfl, rfl⟩
  obtain ⟨T, hT⟩ := Option.isSome_iff_exists.1 C.fresh
  have hch : choose c s1 = .ok () { s1 with cpuflag := cf.getD s1.cpuflag, flags := f s1.flags, tree := T } := by
    unfold choose
    rw [getS_bind_run, r1.2.2.1, if_neg (by decide)]
    unfold whenM
    rw [if_neg (by rw [r1.2.2.2.1]; decide), pure_bind_run, C.init]
    rw [inits_fresh tabs { s1 with cpuflag := cf.getD s1.cpuflag, flags := f s1.flags } T r1.2.1 (by show bindsFresh tabs s1.tree = _; rw [r1.1]; exact hT)]
  have hpb : passBody (n + 1) s = (afterwards >>= fun r => whenM (r ≠ .cont) (error c!"ELSE, ENDC, ENDM, EXITM illegal here"))
      { s1 with cpuflag := cf.getD s1.cpuflag, flags := f s1.flags, tree := T } := by
    unfold passBody
    rw [bind_run, k1]
    dsimp only
    rw [bind_run, g1, bind_run, hch]
    rfl
  have hrun : (catchErr (do (afterwards >>= fun r => whenM (r ≠ .cont) (error c!"ELSE, ENDC, ENDM, EXITM illegal here")); pure true)
      (do bumpErr; pure false) >>= fun a => passLoop (n + 1) n a) { s1 with cpuflag := cf.getD s1.cpuflag, flags := f s1.flags, tree := T } = .ok () e := by
    have hb : ∀ (A B : M Unit) (s s' : St), A s = B s' → catchErr (do A; pure true) (do bumpErr; pure false) s =
        catchErr (do B; pure true) (do bumpErr; pure false) s' := by
      intro A B s s' h
      unfold catchErr
      rw [bind_run, bind_run, h]
    rw [← h, bind_run, bind_run, hb _ _ _ _ hpb]
  obtain ⟨c1, c2, c3⟩ := C.flags s1.flags
  refine ⟨n, { s1 with cpuflag := cf.getD s1.cpuflag, flags := f s1.flags, tree := T }, rfl, hT, r1.2.1, r1.2.2.2.1, r1.2.2.2.2.1, hnt.trans f7, c3.trans r1.2.2.2.2.2.1, c2,
    fun s' e1 e2 => k3 s' (e1.trans r1.2.2.2.2.2.2.1) (e2.trans r1.2.2.2.2.2.2.2), ⟨c1, (fun k hk => by cases hk; rfl), (split_facts hS).2.2.2.2.2.1, ?_, ?_, ?_⟩, hrun⟩
  · show bytesOf s1.log = []
    rw [(split_facts hS).2.2.1, ← hs]
    rfl
  · show s1.lst.pages = []
    obtain ⟨b, cl, nts, rfl, -, -⟩ := hS
    show s.lst.pages = []
    rw [← hs]
    rfl
  · show s1.linenumber = 1
    obtain ⟨b, cl, nts, rfl, -, -⟩ := hS
    show s.linenumber + 1 = 1
    rw [← hs]
    rfl

theorem first_pass {fuel : Nat} {env : Env} {src : Str} {e : St} {rest : List Str} {first m b o name : Str} {c : Cpu} {tabs : List TableId} {f : Flags → Flags}
    {voc : List Entry} {cf : Option Int} {little : Bool} (C : Chosen c tabs f voc cf little) (hn : cpuOf name = some c) (hmild : Mild name)
    (S : Opening name src rest first m b o) (ht : Spec.Tame src)
    (h : passLoop fuel fuel true (passStart 1 { initSt env src with tree := pseudoTree }) = .ok () e) :
    ∀ t ∈ tabs, ∀ w ∈ tableOf t, ∃ l, e.tree.find (canon 0 w.name) = some l ∧ LabLE { w.label with origin := some t } l := by
  obtain ⟨n, s, -, hT, -, -, -, -, -, -, -, -, hrun⟩ := first_front C hn hmild S ht h
  have hw : Walk Step (catchErr (do (afterwards >>= fun r => whenM (r ≠ .cont) (error c!"ELSE, ENDC, ENDM, EXITM illegal here")); pure true)
      (do bumpErr; pure false) >>= fun a => passLoop (n + 1) n a) := by
    refine Walk.bind (walk_catch ?_ (Walk.pure _)) fun b => walk_passLoop _ _ b
    unfold afterwards
    walk
  have hk := hw s
  rw [hrun] at hk
  have hk := K.star ((show Star Step _ (e, .live) from hk).mono fun _ _ h => K.s h)
  intro t ht w hw
  have g := C.found t ht w hw
  rw [hT] at g
  exact hk.tree.old _ _ ((C.good t ht).2 w hw).2.2.2.2 g

end Crasm.C42
