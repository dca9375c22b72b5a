import Verif.Proof.Slim
import Verif.Proof.Table

/-!
  **C56** Which fatal errors end a run.
-/

namespace Crasm

/-! ## The passes -/

theorem thin_initSt (env : Env) (src : Str) : Thin (initSt env src).lst := ⟨Nat.zero_le _, rfl, by show 39 ≤ 76; decide⟩

theorem assemble_slim (fuel : Nat) (o : Opts) {s0 : St} (h : Thin s0.lst) : Slims (assemble fuel o s0) := by
  have hp : ∀ n s, Thin s.lst → Slims (pass fuel n s) := by
    intro n s hs
    unfold pass
    rw [bind_run, passInit_run]
    exact (inferInstance : Slim (passLoop fuel fuel true)).run (passStart n s) hs
  unfold assemble
  refine Slim.bindAt ((inferInstance : Slim (initLabelList .pseudos pseudos)).run s0 h) fun _ s1 _ h1 => ?_
  refine Slim.bindAt (hp 1 s1 h1) fun _ s2 _ h2 => ?_
  change Slims ((pass fuel 2 >>= _) (betweenPasses o s2))
  refine Slim.bindAt (hp 2 (betweenPasses o s2) h2) fun _ s3 _ h3 => ?_
  show Thin (if _ then _ else _ : St).lst
  split <;> exact h3

theorem mild_stop {r : Res α} (h : Slims r) {m : Str} {s : St} (e : r = .stop (.fatal m) s) : m ∈ dire := by
  subst e
  exact h

theorem assemble_mild {fuel : Nat} {o : Opts} {s0 : St} (h : Thin s0.lst) {m : Str} {s : St} (e : assemble fuel o s0 = .stop (.fatal m) s) :
    m ∈ dire := mild_stop (assemble_slim fuel o h) e
theorem assemble_thin {fuel : Nat} {o : Opts} {s0 : St} (h : Thin s0.lst) {s : St} (e : assemble fuel o s0 = .ok () s) : Thin s.lst := by
  have := assemble_slim fuel o h
  rw [e] at this
  exact this

/-- **C56** (the passes). Only two fatal errors occur while the source is read: too many files and macros open at the same
    time, and a code file that cannot be opened. -/
theorem C56_passes {fuel : Nat} {o : Opts} {env : Env} {src m : Str} {s : St}
    (h : assemble fuel o (initSt env src) = .stop (.fatal m) s) :
    m = c!"too many nested INCLUDEs and MACROs" ∨ m = c!"can't open scode file" := by
  have hm := assemble_mild (thin_initSt env src) h
  rcases List.mem_cons.1 hm with hm | hm
  · exact .inl hm
  · exact .inr (List.mem_singleton.1 hm)

/-! ## The summary -/

/-- An empty line buffer. -/
def Clear (w o : Nat) (l : Lst) : Prop := l.llen = w ∧ l.lpos = 0 ∧ l.line = [] ∧ l.lastoffset = o

def Closes (w o : Nat) (r : Res Unit) : Prop :=
  match r with
  | .ok _ s => Clear w o s.lst
  | .err _ => False
  | .stop v _ => ∀ m, v ≠ .fatal m

theorem Closes.bind {w o : Nat} {m : M Unit} {f : Unit → M Unit} {s : St} (hm : Closes w o (m s))
    (hf : ∀ s1, Clear w o s1.lst → Closes w o (f () s1)) : Closes w o ((m >>= f) s) := by
  rw [bind_run]
  revert hm hf
  cases m s with
  | ok a s1 => intro hm hf; exact hf s1 hm
  | err s1 => exact fun hm _ => hm.elim
  | stop v s1 => exact fun hm _ => hm

theorem eol_clear {w o : Nat} {s : St} (h1 : s.lst.llen = w) (h2 : s.lst.lastoffset = o) : Closes w o (outputEOL s) := by
  have hr : ∃ s1, outputraw s.lst.line.reverse s = .ok () s1 ∧ s1.lst.llen = s.lst.llen ∧ s1.lst.lastoffset = s.lst.lastoffset := by
    unfold outputraw
    rw [getS_bind_run]
    by_cases h : s.flags.listOn = true
    · rw [if_pos h]
      refine ⟨_, rfl, (printed_line _ _).2.2, ?_⟩
      show (printed _ s.lst).lastoffset = _
      unfold printed
      dsimp only
      split <;> split <;> rfl
    · rw [if_neg h]
      exact ⟨_, rfl, rfl, rfl⟩
  obtain ⟨s1, e1, e2, e3⟩ := hr
  unfold outputEOL
  rw [getS_bind_run, bind_run, e1]
  exact ⟨e2.trans h1, rfl, rfl, e3.trans h2⟩
theorem loop_clear {w o : Nat} (n : Nat) : ∀ {s : St}, Clear w o s.lst → Closes w o (eolLoop n s) := by
  induction n with
  | zero => exact fun h => h
  | succ n ih =>
    intro s h
    unfold eolLoop
    rw [getS_bind_run]
    split
    · exact h
    · exact (eol_clear h.1 h.2.2.2).bind fun s1 h1 => ih h1
theorem eop_clear {w o : Nat} {s : St} (h : Clear w o s.lst) : Closes w o (outputEOP s) := by
  unfold outputEOP
  rw [getS_bind_run]
  split
  · split
    · exact loop_clear _ h
    · exact h
  · exact h
theorem text_clear {w o : Nat} (hw : 39 ≤ w) {t : Str} (ht : t.all shownChar = true) (hl : t.length < 40) {s : St} (h : Clear w o s.lst) :
    Closes w o ((do output t; outputEOL) s) := by
  have h1 := h.1
  have h2 := h.2.1
  rw [bind_run, output_plain ht (by omega) (by omega)]
  exact eol_clear h.1 h.2.2.2
theorem line_clear {w o : Nat} (hw : 39 ≤ w) {t : Str} (ht : t.all shownChar = true) {s : St} (h : Clear w o s.lst) :
    Closes w o (resultLine t s) := by
  unfold resultLine
  split
  · rintro m ⟨⟩
  · exact text_clear hw ht (by omega) h

/-- The end of a page, whatever is in the line buffer. -/
theorem eop_any {w o : Nat} {s : St} (h1 : s.lst.llen = w) (h2 : s.lst.lastoffset = o) :
    ∃ s', outputEOP s = .ok () s' ∧ s'.lst.llen = w ∧ s'.lst.lastoffset = o := by
  have hl : ∀ n (s : St), s.lst.llen = w → s.lst.lastoffset = o → ∃ s', eolLoop n s = .ok () s' ∧ s'.lst.llen = w ∧ s'.lst.lastoffset = o := by
    intro n
    induction n with
    | zero => exact fun s h1 h2 => ⟨s, rfl, h1, h2⟩
    | succ n ih =>
      intro s h1 h2
      unfold eolLoop
      rw [getS_bind_run]
      split
      · exact ⟨s, rfl, h1, h2⟩
      · have he := eol_clear h1 h2
        obtain ⟨s1, e1, -⟩ := eol_ok s
        rw [e1] at he
        rw [bind_run, e1]
        exact ih s1 he.1 he.2.2.2
  unfold outputEOP
  rw [getS_bind_run]
  split
  · split
    · exact hl _ s h1 h2
    · exact ⟨_, rfl, h1, h2⟩
  · exact ⟨s, rfl, h1, h2⟩

theorem result_clear {w o : Nat} (hw : 39 ≤ w) {s : St} (h1 : s.lst.llen = w) (h2 : s.lst.lastoffset = o) : Closes w o (result s) := by
  unfold result
  rw [getS_bind_run]
  have ha : ∃ s1, whenM ((s.lst.plen : Int) - s.lst.ppos < 10) (do outputEOP; outputEOL; outputEOL) s = .ok () s1 ∧ s1.lst.llen = w ∧ s1.lst.lastoffset = o := by
    unfold whenM
    split
    · obtain ⟨s1, e1, g1, g2⟩ := eop_any h1 h2
      have c1 := eol_clear g1 g2
      obtain ⟨s2, e2, -⟩ := eol_ok s1
      rw [e2] at c1
      have c2 := eol_clear c1.1 c1.2.2.2
      obtain ⟨s3, e3, -⟩ := eol_ok s2
      rw [e3] at c2
      refine ⟨s3, ?_, c2.1, c2.2.2.2⟩
      rw [bind_run, e1]
      show (outputEOL >>= fun _ => outputEOL) s1 = _
      rw [bind_run, e2]
      exact e3
    · exact ⟨s, rfl, h1, h2⟩
  obtain ⟨s1, e1, g1, g2⟩ := ha
  rw [bind_run, e1]
  show Closes w o ((outputEOL >>= _) s1)
  refine (eol_clear g1 g2).bind fun s2 c2 => ?_
  have p : ∀ k, (padLeft 4 (digits k)).all shownChar = true := fun k => plain_padLeft _ (plain_digits _)
  refine (line_clear hw (by rw [List.all_append, p]; rfl) c2).bind fun s3 c3 => ?_
  refine (line_clear hw (by rw [List.all_append, p]; rfl) c3).bind fun s4 c4 => ?_
  refine (eol_clear c4.1 c4.2.2.2).bind fun s5 c5 => ?_
  have tx : ∀ {t : Str} {k : Unit → M Unit} {s : St}, t.all shownChar = true → t.length < 40 → Clear w o s.lst →
      (∀ s1, Clear w o s1.lst → Closes w o (k () s1)) → Closes w o ((output t >>= fun _ => outputEOL >>= k) s) := by
    intro t k s ht hl c hk
    have h1 := c.1
    have h2 := c.2.1
    rw [bind_run, output_plain ht (by omega) (by omega)]
    exact Closes.bind (eol_clear c.1 c.2.2.2) hk
  split
  · refine tx (by decide) (by decide) c5 fun s6 c6 => ?_
    refine (line_clear hw (C53.plain_size _ (by decide) _) c6).bind fun s7 c7 => ?_
    exact line_clear hw (C53.plain_size _ (by decide) _) c7
  · exact text_clear hw (by decide) (by decide) c5

/-! ## The list of symbols -/

/-- The only fatal error is that about the line length. -/
class Dull (m : M α) : Prop where
  run : ∀ s v s', m s = .stop v s' → ∀ t, v = .fatal t → t = c!"line length must be greater"

theorem Dull.bind {m : M α} {f : α → M β} (hm : Dull m) (hf : ∀ a, Dull (f a)) : Dull (m >>= f) := by
  constructor
  intro s w s'
  have h1 := hm.run s
  rw [bind_run]
  revert h1
  cases m s with
  | ok a s1 => intro _; exact (hf a).run s1 w s'
  | err s1 => intro _ h; cases h
  | stop w1 s1 => intro h1 h; cases h; exact h1 _ _ rfl
theorem Dull.pure (a : α) : Dull (Pure.pure a : M α) := ⟨fun _ _ _ h => by cases h⟩
theorem Dull.getS : Dull Crasm.getS := ⟨fun _ _ _ h => by cases h⟩
theorem Dull.modS (g : St → St) : Dull (Crasm.modS g) := ⟨fun _ _ _ h => by cases h⟩
theorem Dull.whenM {c : Prop} [Decidable c] {a : M Unit} (ha : Dull a) : Dull (whenM c a) := by
  unfold Crasm.whenM; split
  · exact ha
  · exact Dull.pure _
macro "dull" : tactic => `(tactic| repeat' (first
  | infer_instance
  | exact Dull.pure _
  | exact Dull.getS
  | exact Dull.modS _
  | with_reducible refine Dull.bind ?_ (fun _ => ?_)
  | with_reducible refine Dull.whenM ?_
  | dsimp only
  | split))
instance (u : UB) : Dull (ubM u : M α) := ⟨fun _ _ _ e => by cases e; rintro t ⟨⟩⟩
instance : Dull (fatal c!"line length must be greater" : M α) := ⟨fun _ _ _ e => by cases e; rintro t ⟨⟩; rfl⟩
instance (f : Lst → Lst) : Dull (modLst f) := Dull.modS _
instance (s pat : Str) : Dull (filterC s pat) := by unfold filterC; dull
instance : Dull eject := by unfold eject; dull
instance (s : Str) : Dull (outputraw s) := by unfold outputraw; dull
instance : Dull outputEOL := by unfold outputEOL; dull
instance dull_eolLoop (n : Nat) : Dull (eolLoop n) := by
  induction n with
  | zero => exact Dull.pure _
  | succ n ih => unfold eolLoop; dull
instance : Dull outputEOP := by unfold outputEOP; dull
instance (c : Char) : Dull (putRaw c) := by unfold putRaw; dull
instance : Dull putSpace := by unfold putSpace; dull
instance dull_putSpaces (n : Nat) : Dull (putSpaces n) := by
  induction n with
  | zero => exact Dull.pure _
  | succ n ih => unfold putSpaces; dull
instance (n : Nat) : Dull (position n) := by unfold position; dull
instance dull_tryPats (t : Str) (ps : List Str) : Dull (tryPats t ps) := by
  induction ps with
  | nil => exact Dull.pure _
  | cons p ps ih => unfold tryPats; dull
instance (c : Char) : Dull (wrapLine c) := by unfold wrapLine; dull
instance (c : Char) : Dull (outputcar c) := by unfold outputcar; dull
instance dull_output (s : Str) : Dull (output s) := by
  induction s with
  | nil => exact Dull.pure _
  | cons p ps ih => unfold output; dull
instance (a : Word) : Dull (outputaddr a) := by unfold outputaddr; dull
instance (k : Str) (l : Label) : Dull (printlabel k l) := by unfold printlabel; dull
instance dull_printlabels (ls : List (Str × Label)) : Dull (printlabels ls) := by
  induction ls with
  | nil => exact Dull.pure _
  | cons x ls ih => obtain ⟨k, l⟩ := x; unfold printlabels; dull
instance : Dull xref := by unfold xref; dull

theorem snug_loop {w : Nat} (n : Nat) : ∀ {s : St}, Snug w s.lst → Snugs w (eolLoop n s) := by
  induction n with
  | zero => exact fun h => h
  | succ n ih =>
    intro s h
    unfold eolLoop
    rw [getS_bind_run]
    split
    · exact h
    · exact .bind (snug_eol h) fun _ s1 _ h1 => ih h1
theorem snug_eop {w : Nat} {s : St} (h : Snug w s.lst) : Snugs w (outputEOP s) := by
  unfold outputEOP
  rw [getS_bind_run]
  split
  · split
    · exact snug_loop _ h
    · exact h
  · exact h
/-- The length of an entry of the list. -/
theorem snug_label {w : Nat} (hw : 62 ≤ w) (k : Str) (l : Label) {s : St} (h : Snug w s.lst) : Snugs w (printlabel k l s) := by
  unfold printlabel
  rw [getS_bind_run]
  have he : Snugs w (whenM (s.lst.llen ≤ s.lst.lpos + RECLEN) outputEOL s) := by
    unfold whenM
    split
    · exact snug_eol h
    · exact h
  refine .bind he fun _ s1 h1 g1 => ?_
  have hp : s1.lst.lpos + RECLEN < w := by
    unfold whenM at h1
    split at h1
    · rw [(eol_pos h1).1]
      show 0 + 61 < w
      omega
    · cases h1
      have := h.1
      omega
  rw [getS_bind_run]
  dsimp only
  split
  · exact g1
  · refine .bind (snug_car _ g1) fun _ s2 _ g2 => ?_
    refine .bind ?_ fun _ s3 _ g3 => ?_
    · unfold whenM
      split
      · unfold outputaddr
        rw [getS_bind_run]
        exact snug_output _ g2
      · exact g2
    refine .bind (snug_position g3 (by omega)) fun _ s4 _ g4 => ?_
    refine .bind (snug_output _ g4) fun _ s5 _ g5 => ?_
    refine .bind (snug_position g5 (by omega)) fun _ s6 _ g6 => ?_
    refine .bind (snug_output _ g6) fun _ s7 _ g7 => ?_
    exact snug_position g7 hp
theorem snug_labels {w : Nat} (hw : 62 ≤ w) (ls : List (Str × Label)) : ∀ {s : St}, Snug w s.lst → Snugs w (printlabels ls s) := by
  induction ls with
  | nil => exact fun h => h
  | cons x ls ih =>
    obtain ⟨k, l⟩ := x
    intro s h
    unfold printlabels
    exact .bind (snug_label hw k l h) fun _ s1 _ h1 => ih h1
theorem snug_xref {w : Nat} (hw : 62 ≤ w) {s : St} (h : Snug w s.lst) : Snugs w (xref s) := by
  unfold xref
  refine .bind (snug_eop h) fun _ s1 _ h1 => ?_
  rw [getS_bind_run]
  refine .bind (snug_labels hw _ h1) fun _ s2 _ h2 => ?_
  exact .bind (snug_eol h2) fun _ s3 _ h3 => snug_eop h3

/-- **C56** (the end of a run). The summary does not end in a fatal error. The list of symbols does so only with the
    message about the line length, and only if PAGE has set the length to less than 62, or to less than the column in which
    the last continuation line of the listing began. -/
theorem C56_end {fuel : Nat} {o : Opts} {env : Env} {src : Str} {s1 : St} (h : assemble fuel o (initSt env src) = .ok () s1) :
    (∀ m s, result s1 ≠ .stop (.fatal m) s) ∧
    ∀ s2, result s1 = .ok () s2 → ∀ m s, xref s2 = .stop (.fatal m) s →
      m = c!"line length must be greater" ∧ (s1.lst.llen < 62 ∨ s1.lst.llen ≤ s1.lst.lastoffset) := by
  have ha := assemble_thin (thin_initSt env src) h
  have hr := result_clear ha.2.2 (s := s1) rfl rfl
  refine ⟨fun m s e => ?_, fun s2 e m s hx => ?_⟩
  · rw [e] at hr
    exact hr m rfl
  · rw [e] at hr
    refine ⟨Dull.run _ _ _ hx m rfl, ?_⟩
    rcases Nat.lt_or_ge s1.lst.llen 62 with hl | hl
    · exact .inl hl
    rcases Nat.lt_or_ge s1.lst.lastoffset s1.lst.llen with ho | ho
    · have := snug_xref hl (s := s2) ⟨hr.1, ha.2.2, by rw [hr.2.2.1]; exact Nat.zero_le _, by rw [hr.2.2.1]; exact Nat.zero_le _, by rw [hr.2.2.2]; exact ho⟩
      rw [hx] at this
      exact absurd rfl (this m)
    · exact .inr ho

/-! ## Without PAGE -/

/-- As long as PAGE does nothing, the line length stays as it is, and continuation lines begin before that column. -/
theorem unpaged {n : Nat} {a b : Lst} (h : LStar n a b) : b.pages = [] → a.pages = [] ∧ b.llen = a.llen ∧
    ((0 < a.llen → a.lastoffset < a.llen) → 0 < b.llen → b.lastoffset < b.llen) := by
  induction h with
  | refl => exact fun h => ⟨h, rfl, id⟩
  | tail _ r ih =>
    cases r with
    | print s h =>
      rename_i l _
      have e : (printed s l).pages = l.pages ∧ (printed s l).llen = l.llen ∧ (printed s l).lastoffset = l.lastoffset := by
        unfold printed
        dsimp only
        split <;> split <;> exact ⟨rfl, rfl, rfl⟩
      rw [e.1, e.2.1, e.2.2]
      exact ih
    | clear => exact ih
    | put c h => exact ih
    | over => exact ih
    | mark a b h =>
      intro hp
      obtain ⟨h1, h2, h3⟩ := ih hp
      refine ⟨h1, h2, fun h0 hl => ?_⟩
      rcases h with rfl | h
      · exact h3 h0 hl
      · exact h hl
    | title => exact ih
    | eject h => exact ih
    | page p w f hp h1 h2 => exact fun h => nomatch h

theorem pass_lays {fuel n : Nat} {s s' : St} (h : pass fuel n s = .ok () s') : LStar n s.lst s'.lst := by
  unfold pass at h
  rw [bind_run, passInit_run] at h
  have := ((inferInstance : Lay (passLoop fuel fuel true)).run (passStart n s)).1
  rw [show passLoop fuel fuel true (passStart n s) = .ok () s' from h] at this
  exact this

theorem loop_lays {fuel n : Nat} {s s' : St} (h : passLoop fuel fuel true (passStart n s) = .ok () s') : LStar n s.lst s'.lst := by
  have := ((inferInstance : Lay (passLoop fuel fuel true)).run (passStart n s)).1
  rw [h] at this
  exact this

/-- The line length after the passes. -/
theorem assemble_unpaged {fuel : Nat} {o : Opts} {s0 s1 : St} (h0 : Inv s0) (hp0 : s0.passnumber = 0) (h : assemble fuel o s0 = .ok () s1)
    (hp : s1.lst.pages = []) : s1.lst.llen = s0.lst.llen ∧ ((0 < s0.lst.llen → s0.lst.lastoffset < s0.lst.llen) → 0 < s1.lst.llen → s1.lst.lastoffset < s1.lst.llen) := by
  obtain ⟨sA, sB, sC, hA, hB, hC, rfl, -, -, -⟩ := assemble_stages h0 hp0 h
  have lC := loop_lays hC
  have lB := pass_lays hB
  have lA := ((inferInstance : Lay (initLabelList .pseudos pseudos)).run s0).1
  rw [hA] at lA
  obtain ⟨c1, c2, c3⟩ := unpaged lC hp
  obtain ⟨b1, b2, b3⟩ := unpaged lB c1
  obtain ⟨-, a2, a3⟩ := unpaged lA b1
  exact ⟨c2.trans (b2.trans a2), fun h => c3 (b3 (a3 h))⟩

/-- **C56** (without PAGE). As long as no PAGE of the source is obeyed, there is no fatal error about the line length at all: nothing
    that follows the passes ends in a fatal error. -/
theorem C56_page {fuel : Nat} {o : Opts} {env : Env} {src : Str} {s1 : St} (h : assemble fuel o (initSt env src) = .ok () s1) (hp : s1.lst.pages = []) :
    (∀ m s, result s1 ≠ .stop (.fatal m) s) ∧ ∀ s2, result s1 = .ok () s2 → ∀ m s, xref s2 ≠ .stop (.fatal m) s := by
  have he := C56_end h
  obtain ⟨h1, h2⟩ := assemble_unpaged (inv_initSt env src) rfl h hp
  have e76 : s1.lst.llen = 76 := h1
  have hlo : s1.lst.lastoffset < s1.lst.llen := h2 (fun _ => by show 0 < 76; decide) (by omega)
  refine ⟨he.1, fun s2 hr m s hx => ?_⟩
  rcases (he.2 s2 hr m s hx).2 with h | h <;> omega

/-- The same for the run: its exit code is 0, or one of two messages has been printed. -/
theorem C56_exit {fuel : Nat} {o : Opts} {env : Env} {src nm : Str} {code : Nat} {out : Str} {file : CodeFile} (hs : env.fs nm = some src)
    (hp : ∀ s, assemble fuel o (initSt env src) = .ok () s → s.lst.pages = []) (h : crasm fuel env o nm = .exit code out file) :
    code = 0 ∨ code = 10 ∧ ∃ before, out = before ++ fatalText c!"too many nested INCLUDEs and MACROs" ∨ out = before ++ fatalText c!"can't open scode file" := by
  unfold crasm at h
  rw [hs] at h
  dsimp only at h
  unfold finish at h
  cases ha : assemble fuel o (initSt env src) with
  | err s => rw [ha] at h; cases h
  | stop w s =>
    rw [ha] at h
    cases w with
    | fatal m =>
      cases h
      refine .inr ⟨rfl, stdoutOf s, ?_⟩
      rcases C56_passes ha with rfl | rfl
      · exact .inl rfl
      · exact .inr rfl
    | _ => cases h
  | ok u s1 =>
    rw [ha] at h
    dsimp only at h
    obtain ⟨p1, p2⟩ := C56_page ha (hp s1 ha)
    cases hr : result s1 with
    | err s => rw [hr] at h; cases h
    | stop w s =>
      rw [hr] at h
      cases w with
      | fatal m => exact absurd hr (p1 m s)
      | _ => cases h
    | ok u s2 =>
      rw [hr] at h
      dsimp only at h
      split at h
      · cases hx : xref s2 with
        | err s => rw [hx] at h; cases h
        | stop w s =>
          rw [hx] at h
          cases w with
          | fatal m => exact absurd hx (p2 s2 hr m s)
          | _ => cases h
        | ok u s3 => rw [hx] at h; cases h; exact .inl rfl
      · cases h; exact .inl rfl

/-! ## The run -/

/-- The messages of fatal(). -/
def fatals : List Str :=
  [c!"can't open source file", c!"too many nested INCLUDEs and MACROs", c!"can't open scode file", c!"line length must be greater"]

/-- **C56** (the run). A run that comes to an end has the exit code 0, or it has printed how crasm is called, or one of four
    messages. -/
theorem C56_run {fuel : Nat} {env : Env} {args : List Str} {code : Nat} {out : Str} {file : CodeFile}
    (h : mainC fuel env args = .exit code out file) :
    code = 0 ∨ code = 10 ∧ ((∃ e, out = syntaxText e) ∨ ∃ before, ∃ m ∈ fatals, out = before ++ fatalText m) := by
  unfold mainC at h
  split at h
  · cases h; exact .inr ⟨rfl, .inl ⟨_, rfl⟩⟩
  · split at h
    · cases h; exact .inr ⟨rfl, .inl ⟨_, rfl⟩⟩
    · unfold crasm at h
      split at h
      · cases h; exact .inr ⟨rfl, .inr ⟨[], _, by decide, rfl⟩⟩
      · rename_i src _
        unfold finish at h
        split at h
        · rename_i m s hA
          cases h
          refine .inr ⟨rfl, .inr ⟨_, m, ?_, rfl⟩⟩
          rcases C56_passes hA with rfl | rfl <;> decide
        · cases h
        · cases h
        · cases h
        · cases h
        · rename_i s1 hA
          have he := C56_end hA
          split at h
          · rename_i m s hR
            exact absurd hR (he.1 m s)
          · cases h
          · cases h
          · cases h
          · cases h
          · rename_i s2 hR
            dsimp only at h
            split at h
            · split at h
              · rename_i m s hX
                cases h
                refine .inr ⟨rfl, .inr ⟨_, m, ?_, rfl⟩⟩
                rw [(he.2 s2 hR m s hX).1]
                decide
              · cases h
              · cases h
              · cases h
              · cases h
              · cases h; exact .inl rfl
            · cases h; exact .inl rfl

/-! ## They occur -/

/-- Does the run end with this message? -/
def failsWith (m : Str) (r : Run) : Bool :=
  match r with
  | .exit 10 out _ => (fatalText m).isSuffixOf out
  | _ => false

/-- A run on a source, with no other file and none that can be written. -/
def runFile (t : Str) (args : List Str) : Run := mainC 100 { fs := fun n => if n = c!"a" then some t else none, canCreate := false } args

/-- PAGE takes a line length from 39 on, but an entry in the list of symbols takes 62 columns: an assembly without errors ends
    with a fatal error after all. -/
theorem C56_narrow : failsWith c!"line length must be greater" (runFile c!" cpu 6502\n page 0,61\nk = 1\n" [c!"a"]) = true ∧
    failsWith c!"line length must be greater" (runFile c!" cpu 6502\n page 0,62\nk = 1\n" [c!"a"]) = false := by
  decide +kernel

/-- A run without PAGE whose last line is continued in column 7. -/
example : (match assemble 100 { list := true } (initSt { fs := fun _ => none } (c!" cpu 6502\nk = 1 ;" ++ List.replicate 80 'x')) with
    | .ok _ s => s.lst.pages.isEmpty && decide (s.lst.lastoffset = 7 ∧ s.lst.lines.length = 3)
    | _ => false) = true := by decide +kernel
example : failsWith c!"too many nested INCLUDEs and MACROs" (runFile c!"m macro\n m\n endm\n m\n" [c!"a"]) = true := by decide +kernel
example : failsWith c!"can't open source file" (runFile [] [c!"b"]) = true := by decide +kernel
example : failsWith c!"can't open scode file" (runFile c!" cpu 6502\n * = 0\n nop\n" [c!"-o", c!"c", c!"a"]) = true := by decide +kernel

end Crasm
