import Verif.Proof.CompFirst
import Verif.Proof.ProgFull

/-! Programs that stand for something are not refused: pass 2. -/

namespace Crasm.C42
open Spec.Program (Isa key Free Body Line State Lines Proper All2 labels hasOrg)

section
variable {isa : Isa} {voc : List Entry} {cf : Option Int} {p a b : Lines isa} {x : Option Str × Body isa.Ins} {s s' : St} {addr : Str → Int} {σ σ' : State}
  {ds : List Str}

/-- The location counter is not a label. -/
theorem Site.calm (S : Site isa p a x b) : starKey ∉ labels p ∧ Spec.Program.late p starKey = false := by
  refine ⟨fun h => S.nostar (.inl h) rfl, ?_⟩
  cases hx : Spec.Program.late p starKey with
  | false => rfl
  | true => exact absurd rfl (S.nostar (.inl (late_mem p hx)))

/-- In pass 2 every name has got a value. -/
theorem met_second (S : Site isa p a x b) (h : Half isa voc p a (x :: b) s)
    (hm : Match addr (Spec.Program.late p) (labels p) (Spec.Program.equates p) ds σ s) : ∀ n ∈ x.2.uses, key n ∉ labels [x] → Met s (key n) := by
  intro n hn hx l hl
  have hdone : key n ∈ labels a ∨ key n ∈ Spec.Program.equates a → l.flags.undef = false := by
    intro hk
    obtain ⟨l', h1, h2⟩ := h.done _ hk
    rw [hl] at h1
    cases h1
    exact h2
  rcases S.proper.closed a x b S.eq n hn with (hp | he) | ⟨he, ho⟩
  · rcases S.labs.1 hp with h1 | h1 | h1
    · exact .inl (hdone (.inl h1))
    · exact absurd h1 hx
    · obtain ⟨-, -, l', g1, -, g2⟩ := hm.lab _ hp
      rw [hl] at g1
      cases g1
      have := S.proper.once
      right
      rw [g2]
      rw [S.eq] at this ⊢
      exact late_of a this hn h1
  · exact .inl (hdone (.inr he))
  · have := h.org ho
    rw [show key n = starKey from he] at hl
    unfold Placed starLabel at this
    rw [hl] at this
    exact .inl this

theorem Match.after (S : Site isa p a x b) (hm : Match addr (Spec.Program.late p) (labels p) (Spec.Program.equates p) ds σ s) {s2 : St}
    (A : After isa voc p a x b s s2) (hself : ∀ k ∈ labels [x], addr k = (starLabel s).value.toInt) :
    Match addr (Spec.Program.late p) (labels p) (Spec.Program.equates p) ds σ s2 := by
  refine hm.tree (fun k l _ hl => ?_) (pc := σ.pc) (fun hp => ?_) (by rw [A.star S]; exact hm.calm)
  · by_cases hk : k ∈ labels [x]
    · obtain ⟨-, -, l', h1, h2, h3⟩ := hm.lab _ (S.own _ hk)
      rw [hl] at h1
      cases h1
      refine ⟨_, A.defd k hk, ?_, ?_⟩
      · exact BitVec.eq_of_toInt_eq ((hself k hk).symm.trans h2.symm)
      · rw [hl]
        show (l.flags.forward || false) = _
        rw [Bool.or_false]
    · exact ⟨l, by rw [A.other k hk]; exact hl, rfl, rfl⟩
  · unfold Placed at hp
    rw [A.star S] at hp ⊢
    exact hm.pc hp

theorem self_second (S : Site isa p a x b) (h : Half isa voc p a (x :: b) s)
    (hm : Match addr (Spec.Program.late p) (labels p) (Spec.Program.equates p) ds σ s) {img : List (Int × Byte)}
    (hst : Spec.Program.Step isa addr (Spec.Program.late p) σ x img σ') : ∀ k ∈ labels [x], addr k = (starLabel s).value.toInt := by
  intro k hk
  have hpl := h.org (S.proper.origin a x b S.eq (.inr fun e => by rw [e] at hk; cases hk))
  refine step_self hst (fun w hw => ?_) k hk
  rw [hm.pc hpl] at hw
  cases hw
  rfl

theorem after_calm {act : Crasm.M α} (h : ∀ t, act s ≠ .err t) : ∀ t, (act >>= fun _ => afterwards) s ≠ .err t := by
  intro t ht
  rw [bind_run] at ht
  cases e : act s with
  | err s1 => exact h s1 e
  | stop w s1 => rw [e] at ht; cases ht
  | ok r s1 => rw [e] at ht; exact afterwards_calm s1 t ht

theorem output_calm : ∀ t, (outputline >>= fun _ => pure RC.cont : Crasm.M RC) s ≠ .err t := by
  intro t ht
  have q := (inferInstance : Quiet outputline).run s
  rw [bind_run] at ht
  cases e : outputline s with
  | err s1 => rw [e] at q; exact q
  | stop w s1 => rw [e] at ht; cases ht
  | ok r s1 => rw [e] at ht; cases ht

theorem ins_second (M : Machine isa voc cf) (C : Complete isa voc cf) {l : Option Str} {i : isa.Ins} (S : Site isa p a (l, .ins i) b)
    (h : Half isa voc p a ((l, .ins i) :: b) s) (hi : Inv isa voc cf s) (hd : ∀ k, k ∈ ds ↔ k ∈ Spec.Program.equates a)
    (hm : Match addr (Spec.Program.late p) (labels p) (Spec.Program.equates p) ds σ s) (hlen : s.curline.length ≤ 600) {n : Nat} {t mn : Str} {o : Option Str}
    (hS : Spec.Stmt (fun w => key w ∈ isa.words) t l mn o) (hA : Spec.Around t s.curline) (hw : isa.writes i (key mn) o)
    (hx : ∀ y ∈ l, Free isa y) {img : List (Int × Byte)} (hst : Spec.Program.Step isa addr (Spec.Program.late p) σ (l, .ins i) img σ') :
    ∀ t, asmline (n + 1) ⟨true, true⟩ s ≠ .err t := by
  obtain ⟨e, he, hn, hI, hd', hp, -, -⟩ := M.ins hw
  obtain ⟨s2, A, h2⟩ := gen_front M S h hlen (n := n) rfl hS hA hx he hn hI hp
  rw [h2]
  have hm2 := hm.after S A (self_second S h hm hst)
  obtain ⟨ab, hN⟩ := A.able M S h (met_second S h hm)
  have hvoc : Vocab voc s2 := fun e he => A.mid.base.vocab e (List.mem_append_right _ he)
  have hpl := h.org (S.proper.origin a _ b S.eq (.inl rfl))
  cases hst with
  | @ins v _ _ bs h1 h3 h4 =>
  obtain ⟨c1, c2⟩ := A.here hpl
  have hpc : s2.code.pc.toInt = v := by
    rw [hm.pc hpl] at h1
    cases h1
    rw [c1]
  have rdy : Ready isa voc cf s2 := ⟨c2, A.lohi.trans hi.lohi, fun k hk => A.kin.cpu.trans (hi.cpu k hk), A.mid.base.seg, A.mid.base.numeric, hvoc, A.fresh⟩
  obtain ⟨hout, hv⟩ := Match.values (P := True) (fun _ => hm2) A.mid.base.seg A.mid.base.here (star_word M) (fun _ => S.calm) (names := isa.uses i)
    (fun n hn => (S.proper.closed a _ b S.eq n hn).imp (fun h => h.imp_right (hd _).2) fun h' => ⟨h'.1, A.kin.placed (h.org h'.2)⟩) fun k hk => S.free k (hk.imp_right fun hk => S.equates ((hd k).1 hk))
  obtain ⟨e', he', hn', hd'', hp', hc⟩ := C.ins hw
  have same : hd'' = hd' ∧ e'.label.modifier = e.label.modifier := by
    obtain ⟨q, q1, q2⟩ := A.mid.base.vocab e he
    obtain ⟨q', q3, q4⟩ := A.mid.base.vocab e' he'
    rw [hn] at q1
    rw [hn', q1] at q3
    cases q3
    refine ⟨?_, q4.2.1.symm.trans q2.2.1⟩
    have := q4.2.2.1.symm.trans q2.2.2.1
    rw [hp, hp'] at this
    cases this
    rfl
  have hcm := hc (self := asmline n) (fuel := n) (label := l) rdy ab (fun n hn => (hN n hn).1) hout hv (by rw [hpc]; exact h4) fun n hn hf => rfl
  rw [same.1, same.2] at hcm
  refine after_calm fun t ht => ?_
  rw [show callHandler (asmline n) n hd' e.label.modifier l o s2 = .err t from ht] at hcm
  exact hcm.1 fun _ _ => rfl

theorem data_second (M : Machine isa voc cf) {l : Option Str} {size : Nat} {swap : Bool} {es : List Spec.Expr} (S : Site isa p a (l, .data size swap es) b)
    (h : Half isa voc p a ((l, .data size swap es) :: b) s) (hm : Match addr (Spec.Program.late p) (labels p) (Spec.Program.equates p) ds σ s)
    (hlen : s.curline.length ≤ 600) {n : Nat} {t mn o : Str} {os : List Str}
    (hS : Spec.Stmt (fun w => key w ∈ isa.words) t l mn (some o)) (hA : Spec.Around t s.curline) (hw : (key mn, size, swap) ∈ Spec.Program.directives)
    (hx : ∀ y ∈ l, Free isa y) (hj : Spec.Joined os o) (h2 : All2 Spec.Program.Number os es) : ∀ t, asmline (n + 1) ⟨true, true⟩ s ≠ .err t := by
  obtain ⟨e, he, hn0, hn, hI, ⟨d1, d2, d3⟩, hd, hd1, hd2⟩ := data_words _ hw
  cases hd2
  have hptr : e.label.ptr = .handler (.pseudo .dc) := by
    have : ∀ e ∈ pseudos, ∀ d ∈ dataDirectives, e.name = d.1 → e.label.ptr = .handler (.pseudo .dc) := by decide +kernel
    exact this e he _ hd (hn0.trans hd1.symm)
  obtain ⟨s2, A, h3⟩ := gen_front M S h hlen (n := n) rfl hS hA hx (List.mem_append_left _ he) hn hI hptr
  rw [h3]
  obtain ⟨ab, hN⟩ := A.able M S h (met_second S h hm)
  obtain ⟨c1, c2⟩ := A.here (h.org (S.proper.origin a _ b S.eq (.inl rfl)))
  obtain ⟨hd', q1, q2⟩ := data_call he hd (hn0.trans hd1.symm) hj h2 ab (fun n hn => (hN n hn).1) c2 (self := asmline n) (fuel := n) (label := l)
  rw [hptr] at q1
  cases q1
  refine after_calm fun t ht => ?_
  rw [show callHandler (asmline n) n (.pseudo .dc) e.label.modifier l (some o) s2 = .err t from ht] at q2
  exact q2

theorem equ_second (M : Machine isa voc cf) {l : Str} {e : Spec.Expr} (S : Site isa p a (some l, .equ e) b)
    (h : Half isa voc p a ((some l, .equ e) :: b) s) (hm : Match addr (Spec.Program.late p) (labels p) (Spec.Program.equates p) ds σ s)
    (hlen : s.curline.length ≤ 600) {n : Nat} {t mn o : Str} {k : Spec.Level}
    (hS : Spec.Stmt (fun w => key w ∈ isa.words) t (some l) mn (some o)) (hA : Spec.Around t s.curline) (hq : key mn = c!"EQU")
    (hx : Free isa l) (ht : Spec.Text k e o) : ∀ t, asmline (n + 1) ⟨true, true⟩ s ≠ .err t := by
  obtain ⟨s1, hs, hnt, h1⟩ := equ_start M h hlen (n := n) hS hA hq (.inr hx)
  rw [h1]
  have hAf := equ_before h rfl hs hnt
  obtain ⟨ha, hN⟩ := hAf.able M S h (met_second S h hm)
  obtain ⟨hc, hr⟩ := free_key (n := l) hx rfl
  have hqp : key l ∈ Spec.Program.equates p := by
    rw [S.eq, equates_append]
    exact List.mem_append_right _ List.mem_cons_self
  have hlp : key l ∉ labels p := S.proper.apart _ hqp
  have hcl : canon s1.segment l = key l := by rw [hAf.mid.base.seg, hc]
  have key1 := equ_sets (x := l) (parse_sure (N := fun k => (s1.tree.find k).isSome ∨ (Spec.Program.marks (Spec.Program.late p) a k = true ∧ k ∈ labels p)) ht ha hN)
    fun s2 st q hq => .inr ⟨(Mid.tstar M st hAf.mid S.star fun k hk => hk).1.equs _ q (by rw [hcl]; exact hr) (by rw [hcl]; exact hlp) hq, rfl⟩
  refine after_calm fun t ht => ?_
  rw [ht] at key1
  exact key1

theorem org_second (M : Machine isa voc cf) {e : Spec.Expr} (S : Site isa p a (none, .org e) b)
    (h : Half isa voc p a ((none, .org e) :: b) s) (hm : Match addr (Spec.Program.late p) (labels p) (Spec.Program.equates p) ds σ s)
    (hlen : s.curline.length ≤ 600) {n : Nat} {t mn o : Str} {k : Spec.Level}
    (hS : Spec.Stmt (fun w => key w ∈ isa.words) t (some ['*']) mn (some o)) (hA : Spec.Around t s.curline) (hq : key mn = c!"EQU")
    (ht : Spec.Text k e o) : ∀ t, asmline (n + 1) ⟨true, true⟩ s ≠ .err t := by
  obtain ⟨s1, hs, hnt, h1⟩ := equ_start M h hlen (n := n) hS hA hq (.inl rfl)
  rw [h1]
  have hAf := equ_before h rfl hs hnt
  obtain ⟨ha, hN⟩ := hAf.able M S h (met_second S h hm)
  have hcl : canon s1.segment ['*'] = starKey := by rw [hAf.mid.base.seg, canon_star]
  have key1 := equ_sets (x := ['*']) (parse_sure (N := fun k => (s1.tree.find k).isSome ∨ (Spec.Program.marks (Spec.Program.late p) a k = true ∧ k ∈ labels p)) ht ha hN)
    fun s2 st q hq => .inr ⟨(Mid.tstar M st hAf.mid S.star fun k hk => hk).1.loc q (by rw [← hcl]; exact hq) |>.1, rfl⟩
  refine after_calm fun t ht => ?_
  rw [ht] at key1
  exact key1

/-- **There is nothing wrong with a line that stands for something.** -/
theorem line_calm (M : Machine isa voc cf) (C : Complete isa voc cf) (S : Site isa p a x b)
    (h : Half isa voc p a (x :: b) s) (hi : Inv isa voc cf s) (hd : ∀ k, k ∈ ds ↔ k ∈ Spec.Program.equates a)
    (hm : Match addr (Spec.Program.late p) (labels p) (Spec.Program.equates p) ds σ s) (hlen : s.curline.length ≤ 600) (hl : Line isa s.curline x.1 x.2)
    {img : List (Int × Byte)} (hst : Spec.Program.Step isa addr (Spec.Program.late p) σ x img σ') {n : Nat} :
    ∀ t, asmline (n + 1) ⟨true, true⟩ s ≠ .err t := by
  obtain ⟨l, body⟩ := x
  dsimp only at hl
  generalize hc : s.curline = line at hl
  cases hl with
  | blank hA =>
    obtain ⟨s2, -, h2⟩ := blank_front h hlen (n := n) (hc ▸ hA)
    rw [h2]
    exact output_calm
  | label hA hf hx =>
    obtain ⟨s2, -, h2⟩ := lone_front M S h hlen (n := n) (hc ▸ hA) (hc ▸ hf) hx
    rw [h2]
    exact output_calm
  | org hA hS hq ht => exact org_second M S h hm hlen hS (hc ▸ hA) hq ht
  | equ hA hS hq hx ht => exact equ_second M S h hm hlen hS (hc ▸ hA) hq hx ht
  | data hA hS hw hx hj h2 => exact data_second M S h hm hlen hS (hc ▸ hA) hw hx hj h2
  | ins hA hS hw hx => exact ins_second M C S h hi hd hm hlen hS (hc ▸ hA) hw hx hst

/-- **All lines of pass 2.** -/
theorem loop_second (M : Machine isa voc cf) (C : Complete isa voc cf) (U : Definite isa) (hp : Proper p)
    (hfree : ∀ k, k ∈ labels p ∨ k ∈ Spec.Program.equates p → ∃ y, Free isa y ∧ key y = k) {fuel : Nat} {s' : St} {σ' : State} (ts : List Str) :
    ∀ (rest a : Lines isa) (n : Nat) (s : St) (ds : List Str) (σ : State) (img : List (Int × Byte)), p = a ++ rest → All2 (fun t x => Line isa t x.1 x.2) ts rest →
      Rest s ts → Inv isa voc cf s → Half isa voc p a rest s → (∀ k, k ∈ ds ↔ k ∈ Spec.Program.equates a) →
      Match addr (Spec.Program.late p) (labels p) (Spec.Program.equates p) ds σ s → Marked p a σ → Spec.Program.Run isa addr (Spec.Program.late p) σ rest img σ' →
      s.errnumber = 0 → passLoop fuel n true s = .ok () s' → s'.errnumber = 0 ∧ image s'.log = image s.log ++ img ∧ ∀ B, Over B s.log → Over B s'.log := by
  induction ts with
  | nil =>
    intro rest a n s ds σ img ep h2 hr hi hh hd hm hmk hrun herr h
    cases h2
    cases hrun
    have he : s.mainEof = true := by
      cases he : s.mainEof with
      | true => rfl
      | false =>
        have := hr.left
        rw [he] at this
        exact absurd this (lines_ne _)
    cases n with
    | zero => cases h
    | succ n =>
      unfold passLoop at h
      rw [getS_bind_run, he, if_pos (by decide)] at h
      cases h
      exact ⟨herr, by rw [List.append_nil], fun _ hB => hB⟩
  | cons t ts ih =>
    intro rest a n s ds σ img ep h2 hr hi hh hd hm hmk hrun herr h
    cases h2 with
    | @cons _ x _ rest hl h2 =>
    cases hrun with
    | @cons _ _ img1 σ1 _ img2 _ hst hrun =>
    have he : s.mainEof = false := by
      cases he : s.mainEof with
      | false => rfl
      | true =>
        have := hr.left
        rw [he] at this
        cases this
    cases n with
    | zero => cases h
    | succ n =>
      obtain ⟨m, e, k1, k2, k3⟩ := linegets_ok hi.stack hr
      cases fuel with
      | zero =>
        obtain ⟨s2, g, -⟩ := round_sure h he k1 (fun t h => by cases h) (fun rc t h => by cases h)
        cases g
      | succ fuel =>
      have S : Site isa p a x rest := ⟨ep, hp, hfree⟩
      have i1 : Inv isa voc cf { s with curline := t, linenumber := s.linenumber + 1, log := .line s.passnumber 0 t :: s.log, main := m, mainEof := e } :=
        ⟨hi.toBase.same rfl rfl rfl rfl rfl, hi.pass, hi.lohi, hi.cpu⟩
      have hh1 : Half isa voc p a (x :: rest) { s with curline := t, linenumber := s.linenumber + 1, log := .line s.passnumber 0 t :: s.log, main := m, mainEof := e } :=
        hh.same rfl rfl rfl rfl rfl rfl rfl
      have m1 : Match addr (Spec.Program.late p) (labels p) (Spec.Program.equates p) ds σ
          { s with curline := t, linenumber := s.linenumber + 1, log := .line s.passnumber 0 t :: s.log, main := m, mainEof := e } :=
        ⟨hm.pc, hm.env, hm.lab, hm.eqs, hm.pre, hm.calm⟩
      have hlen : t.length ≤ 600 := by omega
      have F := line_half M S hh1 hlen (met_second S hh1 m1) (n := fuel) hl
      obtain ⟨s2, g2, g3⟩ := round_sure h he k1 (line_calm M C S hh1 i1 hd m1 hlen hl hst (n := fuel)) fun rc t ht => by
        rw [ht] at F
        exact F.1
      rw [g2] at F
      obtain ⟨-, hN, hK⟩ := F
      have hself := self_second S hh1 m1 hst
      have B : Before isa voc cf True addr (Spec.Program.late p) (labels p) (Spec.Program.equates p) ds σ
          { s with curline := t, linenumber := s.linenumber + 1, log := .line s.passnumber 0 t :: s.log, main := m, mainEof := e } x.1 x.2 := by
        obtain ⟨l, body⟩ := x
        refine ⟨i1, hlen, fun hb => hh1.org (hp.origin a _ rest ep (.inl hb)), fun _ => m1, fun z hz => (hp.closed a _ rest ep z hz).imp (fun h => h.imp_right (hd _).2) fun h => ⟨h.1, hh1.org h.2⟩,
          fun k hk => hfree k (hk.imp_right fun hk => S.equates ((hd k).1 hk)), fun y hy hb => ?_, fun y e hy hb => ?_, fun _ y hy hb => hself _ ?_, fun _ => S.calm, fun _ e hb n hn => ?_⟩
        · cases hy
          exact S.own _ (by rw [label_own hb]; simp)
        · cases hy
          cases hb
          have : key y ∈ Spec.Program.equates p := by
            rw [ep, equates_append]
            exact List.mem_append_right _ List.mem_cons_self
          exact ⟨hp.apart _ this, this⟩
        · cases hy
          rw [label_own hb]
          simp
        · cases hb
          cases hx : σ.late (Spec.Program.late p) n with
          | false => rfl
          | true =>
            have := hmk n hx
            rw [hp.settled a _ rest ep n hn] at this
            cases this
      obtain ⟨-, D⟩ := line_ok M hl B g2
      obtain ⟨img', σ2, q1, q2, q3⟩ := D.step trivial
      have hsome : ∀ k ∈ Spec.Program.equates a, (σ.env k).isSome := fun k hk => hm.eqs k ((hd k).2 hk)
      obtain ⟨rfl, rfl, -⟩ := step_same U hp (fun _ _ => rfl) ep hsome hst q1
      obtain ⟨e1, e2, e3⟩ := ih rest (a ++ [x]) n s2 (Spec.Program.equates [x] ++ ds) σ1 img2 (by rw [ep, List.append_assoc]; rfl) h2 (k3 s2 D.main D.eof) D.inv hN
        (fun k => by rw [equates_append, List.mem_append, List.mem_append, hd k]; exact Or.comm) q2 (hmk.step hst) hrun (hK.errs.trans herr) g3
      refine ⟨e1, ?_, fun B hB => e3 B (D.over B hB)⟩
      rw [e2, q3, image_line, List.append_assoc]

/-- **A program that stands for something is assembled without error, into what it stands for.** -/
theorem program_complete (M : Machine isa voc cf) (D : Complete isa voc cf) (U : Definite isa) {c : Cpu} {tabs : List TableId} {f : Flags → Flags}
    (C : Chosen c tabs f voc cf isa.little) {name : Str} (hn : cpuOf name = some c) (hmild : Mild name)
    {fuel : Nat} {o : Opts} {env : Env} {src : Str} {s : St} (h : assemble fuel o (initSt env src) = .ok () s)
    (hsrc : Spec.Program.Source isa name src p) (ht : Spec.Tame src) (hp : Proper p) {img : List (Int × Byte)}
    (hrun : Spec.Program.Run isa addr (Spec.Program.late p) {} p img σ') : s.errnumber = 0 ∧ image s.log = img ∧
      ∃ B, Over B s.log ∧ B.head?.map (fun x => (x.2.1 + 1).toInt) = topOf img ∧ (∀ x ∈ B, x.1 ≤ 1) ∧ B.length = img.length ∧ ∀ x ∈ B, x.2.2.2 = true := by
  obtain ⟨first, rest, m, b, op, x1, x2, x3, x4, x5, hl⟩ := hsrc
  have S : Opening name src rest first m b op := ⟨x1, x2, x3, x4, x5⟩
  obtain ⟨sA, e, sC, h1, h2, h3, rfl, -⟩ := assemble_stages (inv_initSt env src) rfl h
  have hfree := all_free hl
  have hres : ∀ k, k ∈ labels p ∨ k ∈ Spec.Program.equates p → ¬ Reserved isa k := by
    intro k hk
    obtain ⟨y, hy, rfl⟩ := hfree k hk
    exact (free_key hy rfl).2
  have h2' : passLoop fuel fuel true (passStart 1 { initSt env src with tree := pseudoTree }) = .ok () e := by
    rw [init_run] at h1
    cases h1
    have := h2
    unfold pass at this
    rw [bind_run, passInit_run] at this
    exact this
  -- pass 1
  obtain ⟨s0, H0, F0, e1, e2, hst, hby⟩ := first_all M D U C hn hmild S ht hl hp h2' hrun
  have hfwd : ∀ k l, k ≠ starKey → e.tree.find k = some l → l.flags.noredef = true → l.flags.forward = true → l.type = .absolute := by
    intro k l hk hl _ hf
    by_cases hr : k ∈ isa.words
    · rw [word_forward M C hn hmild S ht h2' hr hl] at hf
      cases hf
    · rw [e1] at hl
      exact H0.mid.base.numeric.abs k l hr hl (.inr hf)
  obtain ⟨n, s, g1, g2, g3, g4, ⟨g5, g5'⟩, g6, g7, g8, g9, g10, -⟩ := second_start M C hn hmild S ht h1 h2 h3 hst hfwd
  -- pass 2
  have hback : ∀ k l, ¬ Reserved isa k → s.tree.find k = some l → ∃ l0, s0.tree.find k = some l0 ∧ l = undefOne l0 ∧ l.flags.undef = true ∧
      (l.flags.forward = true → l0.flags.forward = true ∧ l0.flags.noredef = true) := by
    intro k l hk hl
    rw [g7 k hk] at hl
    obtain ⟨l0, j1, j2⟩ := Option.map_eq_some_iff.1 hl
    subst j2
    refine ⟨l0, by rw [← e1]; exact j1, rfl, ?_, fun hf => ?_⟩
    · show (if l0.origin = some .pseudos then false else true) = true
      rw [if_neg (g8 k l0 hk j1)]
    · change (if (!l0.flags.noredef || l0.flags.undef) = true then false else l0.flags.forward) = true at hf
      by_cases hx : (!l0.flags.noredef || l0.flags.undef) = true
      · rw [if_pos hx] at hf; cases hf
      · rw [if_neg hx] at hf
        refine ⟨hf, ?_⟩
        cases h : l0.flags.noredef with
        | true => rfl
        | false => rw [h] at hx; exact absurd rfl hx
  have hforw : ∀ k l, ¬ Reserved isa k → s.tree.find k = some l → l.flags.forward = true → Spec.Program.late p k = true := by
    intro k l hk hl hf
    obtain ⟨l0, j1, -, -, j2⟩ := hback k l hk hl
    obtain ⟨j3, j4⟩ := j2 hf
    by_cases hkp : k ∈ labels p
    · have := H0.mid.forw k l0 hk j1 j3
      rwa [marks_off _ _ fun hq => hp.apart k hq hkp] at this
    · have := H0.mid.equs k l0 hk hkp j1
      rw [j4] at this
      cases this
  have H1 : Half isa voc p [] p s := by
    refine ⟨⟨g3.toBase, hforw, fun k hk l hl => ?_, fun k l hk hkp hl => ?_, g9, by rw [g6, e2]; exact H0.mid.mild, fun hps => ?_, fun k hk hs => ?_⟩,
      (fun k hk => by rcases hk with hk | hk <;> cases hk), (fun h => by cases h)⟩
    · obtain ⟨-, -, -, j, -⟩ := hback k l (hres k (.inl hk)) hl
      exact j
    · obtain ⟨l0, j1, rfl, -⟩ := hback k l hk hl
      exact H0.mid.equs k l0 hk hkp j1
    · rw [g3.pass] at hps
      cases hps
    · obtain ⟨l, hl⟩ := Option.isSome_iff_exists.1 hs
      obtain ⟨l0, j1, -⟩ := hback k l hk hl
      exact H0.mid.only k hk (by rw [j1]; rfl)
  have hm : Match addr (Spec.Program.late p) (labels p) (Spec.Program.equates p) [] {} s := by
    refine ⟨fun h => absurd h g4, fun k v b h => (by cases h), fun k hk => ⟨fun e => hres k (.inl hk) (.inl e), rfl, ?_⟩, fun k hk => (by cases hk),
      fun k hk _ => ⟨fun e => hres k (.inr hk) (.inl e), ?_⟩, H1.mid.calm⟩
    · obtain ⟨l0, j1, j2, j3, j4, j5⟩ := F0.labs k hk
      refine ⟨undefOne l0, by rw [g7 k (hres k (.inl hk)), e1, j1]; rfl, j4, ?_⟩
      show (if (!l0.flags.noredef || l0.flags.undef) = true then false else l0.flags.forward) = _
      rw [j2, j3, j5]
      rfl
    · have := H0.seen k (.inr hk)
      obtain ⟨l0, j⟩ := Option.isSome_iff_exists.1 this
      have hl : s.tree.find k = some (undefOne l0) := by rw [g7 k (hres k (.inr hk)), e1, j]; rfl
      refine ⟨_, hl, ?_⟩
      cases hf : (undefOne l0).flags.forward with
      | false => rfl
      | true => exact absurd (late_mem _ (hforw k _ (hres k (.inr hk)) hl hf)) (hp.apart k hk)
  obtain ⟨y1, y2, y3⟩ := loop_second M D U hp hfree rest p [] n s [] {} img rfl hl g2 g3 H1 (fun k => by simp [Spec.Program.equates]) hm Marked.nil hrun g10 g1
  refine ⟨y1, ?_, bytesOf e.log, y3 _ ⟨[], g5', (fun x hx => by cases hx)⟩, by rw [hby]; exact F0.tip.1, fun x hx => ?_, by rw [hby]; exact F0.tip.2.1, by rw [hby]; exact F0.tip.2.2⟩
  · show image sC.log = _
    rw [y2, g5]
    rfl
  · exact bytes_first (o := o) h1 h2 x hx

theorem codeOf_bytesOf (p : Nat) (log : List Event) :
    codeOf p log = (bytesOf log).reverse.filterMap fun x => if x.1 = p ∧ x.2.2.2 = true then some (x.2.1, x.2.2.1) else none := by
  unfold codeOf bytesOf
  rw [← List.filterMap_reverse, List.filterMap_filterMap]
  congr 1
  funext ev
  cases ev <;> rfl

/-- The blocks of the code file are what they should be, unless the first byte comes directly behind the last one. -/
theorem clean_over {log : List Event} {B : List ByteEv} {img : List (Int × Byte)} (hi : image log = img) (ho : Over B log)
    (ht : B.head?.map (fun x => (x.2.1 + 1).toInt) = topOf img) (hb : ∀ x ∈ B, x.1 ≤ 1)
    (hc : ∀ x ∈ img.head?, ∀ y ∈ img.getLast?, x.1 ≠ y.1 + 1) : Clean log := by
  obtain ⟨L, e1, hL⟩ := ho
  rintro a v q a' v' on ⟨l1, l2, e2⟩ hq heq
  rw [e1, List.append_assoc, List.append_eq_append_iff] at e2
  rcases e2 with ⟨as, e3, e4⟩ | ⟨bs, e3, e4⟩
  · cases as with
    | nil =>
      have := hb (2, a, v, true) (by rw [← show _ = B from e4]; simp)
      simp at this
    | cons x as =>
      cases as with
      | cons y as =>
        rw [List.cons_append, List.cons_append, List.cons_append] at e4
        injection e4 with h1 e4
        injection e4 with h2 e4
        have := hL y (by rw [e3]; simp)
        rw [← h2] at this
        rcases hq with h | h
        · have := this.1
          dsimp only at this
          omega
        · rw [h] at this
          cases this.2
      | nil =>
        rw [List.cons_append, List.cons_append] at e4
        injection e4 with h1 e4
        have e4 : (q, a', v', on) :: l2 = B := e4
        subst h1
        have hh : img.head? = some (a.toInt, v) := by
          rw [← hi]
          unfold image
          rw [codeOf_bytesOf, e1, List.reverse_append, List.filterMap_append, e3]
          have : List.filterMap (fun x : ByteEv => if x.1 = 2 ∧ x.2.2.2 = true then some (x.2.1, x.2.2.1) else none) B.reverse = [] := by
            rw [List.filterMap_eq_nil_iff]
            intro x hx
            have := hb x (List.mem_reverse.1 hx)
            exact if_neg fun h => by omega
          rw [this, List.reverse_append]
          rfl
        rw [← e4] at ht
        obtain ⟨y, y1, y2⟩ := Option.map_eq_some_iff.1 ht.symm
        refine hc _ hh y y1 ?_
        show a.toInt = _
        rw [y2, heq]
  · have := hb (2, a, v, true) (by rw [e4]; simp)
    simp at this

/-- The condition of C04, for programs. -/
theorem program_clean (M : Machine isa voc cf) (D : Complete isa voc cf) (U : Definite isa) {c : Cpu} {tabs : List TableId} {f : Flags → Flags}
    (C : Chosen c tabs f voc cf isa.little) {name : Str} (hn : cpuOf name = some c) (hmild : Mild name)
    {fuel : Nat} {o : Opts} {env : Env} {src : Str} {s : St} (h : assemble fuel o (initSt env src) = .ok () s)
    (hsrc : Spec.Program.Source isa name src p) (ht : Spec.Tame src) (hp : Proper p) {img : List (Int × Byte)}
    (hrun : Spec.Program.Run isa addr (Spec.Program.late p) {} p img σ') (hc : ∀ x ∈ img.head?, ∀ y ∈ img.getLast?, x.1 ≠ y.1 + 1) : Clean s.log := by
  obtain ⟨-, h1, B, h2, h3, h4, -⟩ := program_complete M D U C hn hmild h hsrc ht hp hrun
  exact clean_over h1 h2 h3 h4 hc

theorem both_passes {log : List Event} {B : List ByteEv} {img : List (Int × Byte)} (h1 : image log = img) (h2 : Over B log) (h4 : ∀ x ∈ B, x.1 ≤ 1)
    (h5 : B.length = img.length) (h6 : ∀ x ∈ B, x.2.2.2 = true) : ((bytesOf log).filter fun e => e.2.2.2).length = 2 * img.length := by
  obtain ⟨L, e1, hL⟩ := h2
  have hall : ∀ x ∈ bytesOf log, x.2.2.2 = true := by
    intro x hx
    rw [e1, List.mem_append] at hx
    exact hx.elim (fun h => (hL x h).2) (h6 x)
  rw [List.filter_eq_self.2 hall, e1, List.length_append, h5]
  have : img.length = L.length := by
    rw [← h1]
    unfold image
    rw [List.length_map, codeOf_bytesOf, e1, List.reverse_append, List.filterMap_append]
    have z : List.filterMap (fun x : ByteEv => if x.1 = 2 ∧ x.2.2.2 = true then some (x.2.1, x.2.2.1) else none) B.reverse = [] := by
      rw [List.filterMap_eq_nil_iff]
      intro x hx
      have := h4 x (List.mem_reverse.1 hx)
      exact if_neg fun h => by omega
    rw [z, List.nil_append]
    have k : ∀ l : List ByteEv, (∀ x ∈ l, x.1 = 2 ∧ x.2.2.2 = true) →
        (l.filterMap fun x : ByteEv => if x.1 = 2 ∧ x.2.2.2 = true then some (x.2.1, x.2.2.1) else none).length = l.length := by
      intro l
      induction l with
      | nil => intro _; rfl
      | cons x l ih =>
        intro hl
        rw [List.filterMap_cons, if_pos (hl x (.head _))]
        exact congrArg (· + 1) (ih fun y hy => hl y (.tail _ hy))
    rw [k _ fun x hx => hL x (List.mem_reverse.1 hx), List.length_reverse]
  omega

/-- The length of the code that is counted is that of both passes. -/
theorem program_length (M : Machine isa voc cf) (D : Complete isa voc cf) (U : Definite isa) {c : Cpu} {tabs : List TableId} {f : Flags → Flags}
    (C : Chosen c tabs f voc cf isa.little) {name : Str} (hn : cpuOf name = some c) (hmild : Mild name)
    {fuel : Nat} {o : Opts} {env : Env} {src : Str} {s : St} (h : assemble fuel o (initSt env src) = .ok () s)
    (hsrc : Spec.Program.Source isa name src p) (ht : Spec.Tame src) (hp : Proper p) {img : List (Int × Byte)}
    (hrun : Spec.Program.Run isa addr (Spec.Program.late p) {} p img σ') (hcount : s.code.codelen = BitVec.ofNat 64 ((bytesOf s.log).filter fun e => e.2.2.2).length) :
    s.code.codelen = BitVec.ofNat 64 (2 * img.length) := by
  obtain ⟨-, h1, B, h2, -, h4, h5, h6⟩ := program_complete M D U C hn hmild h hsrc ht hp hrun
  exact hcount.trans (congrArg (BitVec.ofNat 64) (both_passes h1 h2 h4 h5 h6))

end

end Crasm.C42
