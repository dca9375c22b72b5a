import Verif.Proof.TextP

/-! What evaluating operands and generating code can do to the symbol table when the operands are expressions in names:
no name is entered but those of the expressions, and the evaluation itself never fails. -/

namespace Crasm

/-- Steps of instructions and data directives whose operands name only what is in `N` or defined already. -/
inductive TStep (N : Str → Prop) : Cfg → Cfg → Prop
  | scratch (s : St) (lst : Lst) (bufpos : Nat) (calcR : Result) (listOn : Bool) :
      TStep N (s, .live) ({ s with lst, bufpos, calcR, flags := { s.flags with listOn } }, .live)
  | use (s : St) (k : Str) (hk : N k ∨ (s.tree.find k).isSome) :
      TStep N (s, .live) ({ s with tree := s.tree.put k (usedLabel s (s.tree.find k)) }, .live)
  | error0 (s : St) (h : s.advance = 0) :
      TStep N (s, .live) ({ s with log := .error s.passnumber (!s.flags.noerror) :: s.log }, .pend)
  | error1 (s : St) (t : Tree) (h : s.advance ≠ 0) (hb : bumped s t) :
      TStep N (s, .live) ({ s with tree := t, log := .error s.passnumber (!s.flags.noerror) :: s.log }, .pend)
  | die (s : St) (lst : Lst) (bufpos : Nat) (code : Code) (listOn : Bool) :
      TStep N (s, .live) ({ s with lst, bufpos, code, flags := { s.flags with listOn } }, .dead)
  | emit (s : St) (x : Byte) (ho : s.flags.orgGv = true)
      (hc : s.flags.nocode = false → s.code.file = none → s.env.canCreate = true) :
      TStep N (s, .live) (emitSt s x, .live)
  | lohi (s : St) (b : Bool) : TStep N (s, .live) ({ s with flags := { s.flags with lohi := b } }, .live)
  | choice (s : St) (c : Choice) : TStep N (s, .live) ({ s with notes := (s.passnumber, .choice false c) :: s.notes }, .live)

variable {N : Str → Prop}

theorem TStep.h {a b : Cfg} (h : TStep N a b) : HStep a b := by
  cases h with
  | scratch s => exact .n (.scratch s _ _ _ _)
  | use s k => exact .n (.use s k)
  | error0 s h => exact .n (.error0 s h)
  | error1 s t h hb => exact .n (.error1 s t h hb)
  | die s => exact .n (.die s _ _ _ _)
  | emit s x ho hc => exact .emit s x ho hc
  | lohi s b => exact .lohi s b
  | choice s c => exact .note s _ (by simp)

theorem TStep.mono {N' : Str → Prop} (hn : ∀ k, N k → N' k) {a b : Cfg} (h : TStep N a b) : TStep N' a b := by
  cases h with
  | scratch s => exact .scratch s _ _ _ _
  | use s k h => exact .use s k (h.imp_left (hn k))
  | error0 s h => exact .error0 s h
  | error1 s t h hb => exact .error1 s t h hb
  | die s => exact .die s _ _ _ _
  | emit s x ho hc => exact .emit s x ho hc
  | lohi s b => exact .lohi s b
  | choice s c => exact .choice s c

theorem nwalk_notes {m : M α} (h : Walk NStep m) {s s' : St} {a : α} (hr : m s = .ok a s') : s'.notes = s.notes := by
  have := h s
  rw [hr] at this
  have key : ∀ {a b : Cfg}, Star NStep a b → b.2 = .live → b.1.notes = a.1.notes := by
    intro a b h
    induction h with
    | refl => exact fun _ => rfl
    | tail _ r ih =>
      intro hb
      cases r <;> first | exact ih rfl | cases hb
  exact key (show Star NStep (s, .live) (s', .live) from this) rfl

theorem SameBut.tame {s s' : St} (h : SameBut s s') : Star (TStep N) (s, .live) (s', .live) := by
  obtain ⟨l, b, f, rfl⟩ := h
  exact .one (.scratch s l b s.calcR f)

theorem Quiet.tame {m : M α} (h : Quiet m) : Walk (TStep N) m := by
  intro s
  have := h.run s
  unfold Out
  split <;> rename_i heq <;> rw [heq] at this
  · exact this.tame
  · exact this.elim
  · obtain ⟨l, b, f, rfl⟩ := this
    exact .one (.die s l b s.code f)

instance (m : M α) [h : Quiet m] : W (TStep N) m := ⟨h.tame⟩

instance (msg : Str) : W (TStep N) (error msg : M α) := ⟨by
  intro s
  rcases error_run (α := α) msg s with ⟨w, s', h, l, b, f, rfl⟩ | ⟨s1, s', h, ⟨l, b, f, rfl⟩, ⟨ha, rfl⟩ | ⟨t, ha, hb, rfl⟩⟩
  · rw [h]; exact .one (.die s l b s.code f)
  · rw [h]
    exact (Star.one (.scratch s l b s.calcR s.flags.listOn)).trans (.one (.error0 { s with lst := l, bufpos := b } ha))
  · rw [h]
    exact (Star.one (.scratch s l b s.calcR s.flags.listOn)).trans (.one (.error1 { s with lst := l, bufpos := b } t ha hb))⟩

instance (x : Byte) : W (TStep N) (insert8 x) := ⟨by
  intro s
  by_cases ho : s.flags.orgGv = true
  · by_cases hc : s.flags.nocode = false → s.code.file = none → s.env.canCreate = true
    · rcases insert8_run x s ho hc with ⟨w, s', c, h, l, b, f, rfl⟩ | ⟨s', h, hq⟩
      · rw [h]; exact .one (.die s l b c f)
      · rw [h]; exact (Star.one (.emit s x ho hc)).trans hq.tame
    · obtain ⟨h1, h2, h3⟩ : s.flags.nocode = false ∧ s.code.file = none ∧ s.env.canCreate = false := by
        simpa using hc
      have : insert8 x s = .stop (.fatal c!"can't open scode file") s := by
        simp [insert8, openScode, ho, h1, h2, h3, bind_run]
      rw [this]
      exact .one (.die s s.lst s.bufpos s.code s.flags.listOn)
  · have : insert8 x s = (error c!"no org given" : M Unit) s := by
      simp [insert8, ho]
    rw [this]
    exact W.walk s⟩
instance (x : BitVec 16) : W (TStep N) (insert16 x) := ⟨by unfold insert16; walk⟩
instance (x : BitVec 32) : W (TStep N) (insert32 x) := ⟨by unfold insert32; walk⟩
instance : W (TStep N) (modFlags fun f => { f with lohi := !f.lohi }) :=
  ⟨Walk.modS fun s => .one (.lohi s (!s.flags.lohi))⟩
instance (tgt : Bool) (r : Result) : W (TStep N) (setRes tgt r) := ⟨by
  unfold setRes
  refine Walk.bind ?_ fun _ => Walk.pure _
  exact Walk.whenM (Walk.modS fun s => .one (.scratch s s.lst s.bufpos r s.flags.listOn))⟩
instance (tgt : Bool) (v : Nat) : W (TStep N) (cst tgt v) := ⟨by unfold cst; walk⟩
instance (r : Result) (t : LType) : W (TStep N) (checktype r t) := ⟨by unfold checktype; walk⟩

/-- Steps of instructions and data directives. -/
inductive ChipStep : Cfg → Cfg → Prop
  | n {a b : Cfg} (h : NStep a b) : ChipStep a b
  | emit (s : St) (x : Byte) (ho : s.flags.orgGv = true)
      (hc : s.flags.nocode = false → s.code.file = none → s.env.canCreate = true) :
      ChipStep (s, .live) (emitSt s x, .live)
  | lohi (s : St) (b : Bool) : ChipStep (s, .live) ({ s with flags := { s.flags with lohi := b } }, .live)
  | choice (s : St) (b : Bool) (c : Choice) : ChipStep (s, .live) ({ s with notes := (s.passnumber, .choice b c) :: s.notes }, .live)

theorem ChipStep.h {a b : Cfg} (h : ChipStep a b) : HStep a b := by
  cases h with
  | n h => exact .n h
  | emit s x ho hc => exact .emit s x ho hc
  | lohi s b => exact .lohi s b
  | choice s b c => exact .note s _ (by simp)
theorem TStep.chip {a b : Cfg} (h : TStep N a b) : ChipStep a b := by
  cases h with
  | scratch s => exact .n (.scratch s _ _ _ _)
  | use s k => exact .n (.use s k)
  | error0 s h => exact .n (.error0 s h)
  | error1 s t h hb => exact .n (.error1 s t h hb)
  | die s => exact .n (.die s _ _ _ _)
  | emit s x ho hc => exact .emit s x ho hc
  | lohi s b => exact .lohi s b
  | choice s c => exact .choice s false c

instance (m : M α) [h : W NStep m] : W ChipStep m := ⟨h.walk.mono fun _ _ h => .n h⟩
instance (x : Byte) : W ChipStep (insert8 x) := ⟨(W.walk : Walk (TStep fun _ => True) (insert8 x)).mono fun _ _ h => h.chip⟩
instance (x : BitVec 16) : W ChipStep (insert16 x) := ⟨(W.walk : Walk (TStep fun _ => True) (insert16 x)).mono fun _ _ h => h.chip⟩
instance (x : BitVec 32) : W ChipStep (insert32 x) := ⟨(W.walk : Walk (TStep fun _ => True) (insert32 x)).mono fun _ _ h => h.chip⟩
instance : W ChipStep (modFlags fun f => { f with lohi := !f.lohi }) := ⟨Walk.modS fun s => .one (.lohi s (!s.flags.lohi))⟩
instance (c : BitVec 32) (o : Option Str) : W ChipStep (relBranch c o) := ⟨by unfold relBranch; walk⟩
namespace C6502
instance (c : BitVec 32) (o : Option Str) : W ChipStep (single c o) := ⟨by unfold single; walk⟩
instance (c : BitVec 32) (o : Option Str) : W ChipStep (standard c o) := ⟨by unfold standard; walk⟩
instance (h : H6502) (m : Int) (o : Option Str) : W ChipStep (call h m o) := ⟨by unfold call; walk⟩
end C6502
instance (o : Option Str) (m : Int) : W ChipStep (stocke o m) := ⟨by unfold stocke; walk⟩
theorem qwalk_dcLoop (m : Int) (n : Nat) : ∀ o, Walk ChipStep (dcLoop m n o) := by
  induction n with
  | zero => intro o; unfold dcLoop; walk
  | succ n ih => intro o; unfold dcLoop; walk; exact ih _
instance (m : Int) (n : Nat) (o : Option Str) : W ChipStep (dcLoop m n o) := ⟨qwalk_dcLoop m n o⟩
instance (m : Int) (o : Option Str) : W ChipStep (xDc m o) := ⟨by unfold xDc; walk⟩

/-- The outcome, unless the program stops, is explained by these steps. -/
def Goes (N : Str → Prop) (s : St) : Res α → Prop
  | .ok _ s' => Star (TStep N) (s, .live) (s', .live)
  | .err s' => Star (TStep N) (s, .live) (s', .pend)
  | .stop _ _ => True

theorem Walk.goes {m : M α} (h : Walk (TStep N) m) (s : St) : Goes N s (m s) := by
  have := h s
  cases e : m s with
  | ok a s' => rw [e] at this; exact this
  | err s' => rw [e] at this; exact this
  | stop w s' => trivial

theorem Goes.mono {N' : Str → Prop} (hn : ∀ k, N k → N' k) {s : St} {r : Res α} (h : Goes N s r) : Goes N' s r := by
  revert h
  unfold Goes
  split <;> intro h
  · exact h.mono fun _ _ => TStep.mono hn
  · exact h.mono fun _ _ => TStep.mono hn
  · trivial

theorem Goes.toward {s : St} {r r' : Res α} (h : Toward r r') (h' : Goes N s r') : Goes N s r := by
  rcases h with rfl | ⟨t, rfl⟩
  · exact h'
  · trivial

theorem Goes.after {s s1 : St} {r : Res α} (h : Star (TStep N) (s, .live) (s1, .live)) (h' : Goes N s1 r) : Goes N s r := by
  revert h'
  unfold Goes
  split <;> intro h'
  · exact h.trans h'
  · exact h.trans h'
  · trivial

theorem Goes.bind {s : St} {m : M α} {f : α → M β} (hm : Goes N s (m s))
    (hf : ∀ a s', Star (TStep N) (s, .live) (s', .live) → m s = .ok a s' → Goes N s' (f a s')) : Goes N s ((m >>= f) s) := by
  rw [bind_run]
  cases h : m s with
  | ok a s' =>
    rw [h] at hm
    exact .after hm (hf a s' hm h)
  | err s' => rw [h] at hm; exact hm
  | stop w s' => trivial

/-- Outside of `keys`, every name that is known is defined or was referred to before being defined. -/
def Alive (keys : Str → Prop) (s : St) : Prop :=
  ∀ k l, ¬ keys k → s.tree.find k = some l → l.flags.undef = false ∨ l.flags.forward = true

/-- Numbers and nothing but numbers outside of `keys`, so that expressions have values. -/
structure Able (keys : Str → Prop) (s : St) : Prop where
  seg : s.segment = 0
  numeric : Numeric keys s
  alive : Alive keys s

theorem Alive.use {keys : Str → Prop} {s : St} (h : Alive keys s) (k : Str) :
    Alive keys { s with tree := s.tree.put k (usedLabel s (s.tree.find k)) } := by
  intro k' l hk hl
  change (s.tree.put k _).find k' = some l at hl
  by_cases e : k' = k
  · subst e
    rw [Tree.find_put_self] at hl
    cases hl
    cases hf : s.tree.find k' with
    | none => exact .inr rfl
    | some l => exact h k' l hk hf
  · rw [Tree.find_put_ne _ _ e] at hl
    exact h k' l hk hl

theorem Alive.bumped {keys : Str → Prop} {s : St} {t : Tree} (h : Alive keys s) (hs : keys starKey ∨ (s.tree.find starKey).isSome) (hb : bumped s t) :
    Alive keys { s with tree := t } := by
  obtain ⟨v, -, rfl⟩ := hb
  intro k' l hk hl
  change (s.tree.put starKey _).find k' = some l at hl
  by_cases e : k' = starKey
  · subst e
    rw [Tree.find_put_self] at hl
    cases hl
    obtain ⟨l0, hl0⟩ := Option.isSome_iff_exists.1 (hs.resolve_left hk)
    have e0 : starLabel s = l0 := by unfold starLabel; rw [hl0]; rfl
    rw [e0]
    exact h _ l0 hk hl0
  · rw [Tree.find_put_ne _ _ e] at hl
    exact h k' l hk hl

theorem Able.tstep {keys : Str → Prop} {a b : Cfg} (hp : Able keys a.1) (h : TStep N a b) : Able keys b.1 := by
  have hn := hp.numeric.hstep h.h
  cases h with
  | use s k => exact ⟨hp.seg, hn, hp.alive.use k⟩
  | error1 s t h hb => exact ⟨hp.seg, hn, hp.alive.bumped hp.numeric.star hb⟩
  | _ => exact ⟨hp.seg, hn, hp.alive⟩

theorem Able.tstar {keys : Str → Prop} {a b : Cfg} (h : Star (TStep N) a b) (hp : Able keys a.1) : Able keys b.1 := by
  induction h with
  | refl => exact hp
  | tail _ r ih => exact ih.tstep r

/-- What evaluating an expression in these names does: it does not fail, its value is a number, and if that is marked as
    depending on a later definition, then so is one of the names. -/
def Sure (N : Str → Prop) (names : List Str) (s : St) : Res Result → Prop
  | .ok r s' => Star (TStep N) (s, .live) (s', .live) ∧ r.type = .absolute ∧
      (r.flags.forward = true → ∃ x ∈ names, ∃ l, s'.tree.find (canon 0 x) = some l ∧ l.flags.forward = true)
  | .err _ => False
  | .stop _ _ => True

theorem Sure.goes {names : List Str} {s : St} {r : Res Result} (h : Sure N names s r) : Goes N s r := by
  cases r with
  | ok a s' => exact h.1
  | err s' => exact h.elim
  | stop w s' => trivial

theorem Sure.toward {names : List Str} {s : St} {r r' : Res Result} (h : Toward r r') (h' : Sure N names s r') : Sure N names s r := by
  rcases h with rfl | ⟨t, rfl⟩
  · exact h'
  · trivial

theorem Sure.after {names : List Str} {s s1 : St} {r : Res Result} (h : Star (TStep N) (s, .live) (s1, .live)) (h' : Sure N names s1 r) :
    Sure N names s r := by
  revert h'
  unfold Sure
  split <;> intro h'
  · exact ⟨h.trans h'.1, h'.2⟩
  · exact h'
  · trivial

/-- A label stays marked. -/
theorem tstar_forward {a b : Cfg} (h : Star (TStep N) a b) {k : Str} :
    (∃ l, a.1.tree.find k = some l ∧ l.flags.forward = true) → ∃ l, b.1.tree.find k = some l ∧ l.flags.forward = true := by
  intro hl
  induction h with
  | refl => exact hl
  | tail _ r ih =>
    obtain ⟨l, h1, h2⟩ := ih
    cases r with
    | use s k' _ =>
      by_cases e : k = k'
      · subst e
        refine ⟨_, Tree.find_put_self _ _ _, ?_⟩
        have h1 : s.tree.find k = some l := h1
        rw [h1]
        exact h2
      · exact ⟨l, (Tree.find_put_ne _ _ e).trans h1, h2⟩
    | error1 s t _ hb =>
      obtain ⟨v, -, rfl⟩ := hb
      by_cases e : k = starKey
      · subst e
        have e0 : starLabel s = l := by unfold starLabel; rw [show s.tree.find starKey = some l from h1]; rfl
        exact ⟨_, Tree.find_put_self _ _ _, by rw [e0]; exact h2⟩
      · exact ⟨l, (Tree.find_put_ne _ _ e).trans h1, h2⟩
    | _ => exact ⟨l, h1, h2⟩

theorem finishOp_sure {names : List Str} {tgt : Bool} {o : OpRes} {v : Except Spec.Why Int} {m : Int} {u : Bool} {s : St} (h : OpDoes o v m u)
    (hf : ∀ r, o = .ok r → r.flags.forward = true → ∃ x ∈ names, ∃ l, s.tree.find (canon 0 x) = some l ∧ l.flags.forward = true) :
    Sure N names s (finishOp tgt o s) := by
  cases v with
  | ok x =>
    obtain ⟨r, rfl, h2, -⟩ := h
    have := (W.walk : Walk (TStep N) (setRes tgt r)) s
    show Sure N names s (setRes tgt r s)
    cases e : setRes tgt r s with
    | ok r' s' =>
      obtain ⟨rfl, ht⟩ := setRes_ok e
      rw [e] at this
      refine ⟨this, h2, fun hr => ?_⟩
      rw [ht]
      exact hf r' rfl hr
    | err s' => unfold setRes at e; cases tgt <;> cases e
    | stop w s' => trivial
  | error w => cases w <;> · cases h; trivial

theorem one_sure {names : List Str} {n : Nat} {tgt : Bool} {op : Spec.UnOp} {R : Str} {s : St}
    (h : Sure N names s (parse2 n tgt R s)) : Sure N names s (one (parse2 n) tgt (Spec.UnOp.op op) R s) := by
  unfold one
  rw [bind_run]
  cases e : parse2 n tgt R s with
  | err s' => rw [e] at h; exact h.elim
  | stop w s' => trivial
  | ok p s1 =>
    rw [e] at h
    exact .after h.1 (finishOp_sure (op1_does op h.2.1) fun r hr hf => h.2.2 (by rw [← op1_flags hr]; exact hf))

theorem both_sure {as bs : List Str} {n : Nat} {tgt : Bool} {op : Spec.BinOp} {Ra Rb : Str} {s : St}
    (ha : Sure N as s (parse2 n tgt Ra s))
    (hb : ∀ r s', parse2 n tgt Ra s = .ok r s' → Star (TStep N) (s, .live) (s', .live) → Sure N bs s' (parse2 n false Rb s')) :
    Sure N (as ++ bs) s (both (parse2 n) tgt (Spec.BinOp.op op) Rb Ra s) := by
  unfold both
  rw [bind_run]
  cases e : parse2 n tgt Ra s with
  | err s' => rw [e] at ha; exact ha.elim
  | stop w s' => trivial
  | ok p s1 =>
    rw [e] at ha
    refine .after ha.1 ?_
    have hb := hb p s1 e ha.1
    show Sure N (as ++ bs) s1 ((parse2 n false Rb >>= _) s1)
    rw [bind_run]
    cases e2 : parse2 n false Rb s1 with
    | err s' => rw [e2] at hb; exact hb.elim
    | stop w s' => trivial
    | ok a s2 =>
      rw [e2] at hb
      refine .after hb.1 (finishOp_sure (op2_does op ha.2.1 hb.2.1) fun r hr hf => ?_)
      rw [op2_flags hr] at hf
      have hf : (p.flags.forward || a.flags.forward) = true := hf
      rw [Bool.or_eq_true] at hf
      rcases hf with hf | hf
      · obtain ⟨x, hx, hl⟩ := ha.2.2 hf
        exact ⟨x, List.mem_append_left _ hx, tstar_forward hb.1 hl⟩
      · obtain ⟨x, hx, hl⟩ := hb.2.2 hf
        exact ⟨x, List.mem_append_right _ hx, hl⟩

theorem label_sure {keys : Str → Prop} {t : Str} (h : Leaf t) {n : Nat} {tgt : Bool} {s : St} (hp : Able keys s)
    (hk : ¬ keys (canon 0 t)) (hN : N (canon 0 t)) : Sure N [t] s (parse2 (n + 1) tgt t.reverse s) := by
  obtain ⟨b, this⟩ := leaf_start (n := n) (tgt := tgt) h s
  refine .toward this ?_
  have hb : TStep N (s, .live) ({ s with bufpos := b }, .live) := .scratch s s.lst b s.calcR s.flags.listOn
  refine .after (.one hb) ?_
  replace hp : Able keys { s with bufpos := b } := hp.tstep hb
  clear this hb
  generalize ({ s with bufpos := b } : St) = s at *
  unfold parseLeaf
  rw [if_pos h.check]
  unfold cstlabel
  have hfl : findlabel t s = .ok (usedLabel s (s.tree.find (canon 0 t)))
      { s with tree := s.tree.put (canon 0 t) (usedLabel s (s.tree.find (canon 0 t))) } := by
    rw [← hp.seg]
    unfold findlabel searchlabel usedLabel
    cases h : s.tree.find (canon s.segment t) <;> simp only [getS_bind_run, h] <;> rfl
  have hst : TStep N (s, .live) ({ s with tree := s.tree.put (canon 0 t) (usedLabel s (s.tree.find (canon 0 t))) }, .live) :=
    .use s _ (.inl hN)
  have hp1 : Able keys { s with tree := s.tree.put (canon 0 t) (usedLabel s (s.tree.find (canon 0 t))) } := hp.tstep hst
  have hfd : ({ s with tree := s.tree.put (canon 0 t) (usedLabel s (s.tree.find (canon 0 t))) } : St).tree.find (canon 0 t) = some _ :=
    Tree.find_put_self s.tree (canon 0 t) (usedLabel s (s.tree.find (canon 0 t)))
  rw [bind_run, hfl]
  refine .after (.one hst) ?_
  generalize usedLabel s (s.tree.find (canon 0 t)) = l at *
  have hd := hp1.alive _ l hk hfd
  have hty := hp1.numeric.abs _ l hk hfd hd
  have hu : ¬ (l.flags.undef && !l.flags.forward) = true := by
    revert hd
    cases l.flags.undef <;> cases l.flags.forward <;> simp
  show Sure N [t] _ ((setRes tgt _ >>= _) _)
  rw [bind_run]
  generalize ({ s with tree := s.tree.put (canon 0 t) l } : St) = s1 at *
  have hw := (W.walk : Walk (TStep N) (setRes tgt { flags := l.flags, type := l.type, modifier := l.modifier, ptr := l.ptr, value := l.value })) s1
  cases e : setRes tgt { flags := l.flags, type := l.type, modifier := l.modifier, ptr := l.ptr, value := l.value } s1 with
  | ok r' s' =>
    obtain ⟨rfl, ht⟩ := setRes_ok e
    rw [e] at hw
    refine .after hw ?_
    show Sure N [t] s' ((if (l.flags.undef && !l.flags.forward) = true then error _ else pure _ : M Result) s')
    rw [if_neg hu]
    refine ⟨.refl _, hty, fun hf => ⟨t, by simp, l, ?_, hf⟩⟩
    rw [ht]; exact hfd
  | err s' => unfold setRes at e; cases tgt <;> cases e
  | stop w s' => trivial

theorem num_sure {b : Nat} {ds t : Str} {v : Nat} (hw : Spec.Writes b ds t) (hne : ds ≠ []) (hn : Spec.number b ds = some v) (hlt : v < 2 ^ 32)
    {n : Nat} {tgt : Bool} {s : St} : Sure N [] s (parse2 (n + 1) tgt t.reverse s) := by
  have hp := (writes_plain hw hne fun c hc => plain_x (number_digits hn c hc).1).2
  have hr : ∀ c ∈ t.reverse, plainChar c = true := fun c hc => hp c (List.mem_reverse.1 hc)
  have := parse2_leaf (n := n) (tgt := tgt) hr s
  rw [creverse_plain (plain_quote hr), List.reverse_reverse] at this
  refine .toward this ?_
  obtain ⟨k, h3⟩ := const_leaf hw hne hn tgt s
  have hl : v < Spec.limit b := by unfold Spec.limit; split <;> omega
  rw [if_pos hl] at h3
  refine .toward h3 ?_
  obtain ⟨r', e', h4, h5, h6, h7⟩ := cst_run tgt v { s with bufpos := k }
  have hw := (W.walk : Walk (TStep N) (cst tgt v)) { s with bufpos := k }
  show Sure N [] s (cst tgt v { s with bufpos := k })
  rw [e'] at hw ⊢
  refine ⟨(Star.one (.scratch s s.lst k s.calcR s.flags.listOn)).trans hw, h4, fun hf => ?_⟩
  rw [h6] at hf
  cases hf

theorem text_sure {keys : Str → Prop} {k : Spec.Level} {e : Spec.Expr} {t : Str} (h : Spec.Text k e t) :
    ∀ n tgt s, t.length < n → Able keys s → (∀ x ∈ e.names, ¬ keys (canon 0 x) ∧ N (canon 0 x)) →
      Sure N e.names s (parse2 n tgt t.reverse s) := by
  have succ : ∀ {m n : Nat}, m < n → ∃ n', n = n' + 1 := fun {m n} h => ⟨n - 1, by omega⟩
  have buf : ∀ (s : St) w, Star (TStep N) (s, .live) ({ s with bufpos := w }, .live) :=
    fun s w => .one (.scratch s s.lst w s.calcR s.flags.listOn)
  induction h with
  | num hw hne hn hlt =>
    intro n tgt s hl _ _
    obtain ⟨n, rfl⟩ := succ hl
    exact num_sure hw hne hn hlt
  | @label k t h =>
    intro n tgt s hl hp hk
    obtain ⟨n, rfl⟩ := succ hl
    obtain ⟨h1, h2⟩ := hk t (by simp [Spec.Expr.names])
    exact label_sure (.inl h) hp h1 h2
  | @here k _ =>
    intro n tgt s hl hp hk
    obtain ⟨n, rfl⟩ := succ hl
    obtain ⟨h1, h2⟩ := hk ['*'] (by simp [Spec.Expr.names])
    exact label_sure (.inr rfl) hp h1 h2
  | @bin k op a b ta tb b1 b2 _ _ ha hb h1 h2 iha ihb =>
    intro n tgt s hl hp hk
    obtain ⟨n, rfl⟩ := succ hl
    have la : 0 < ta.length := List.length_pos_iff.2 (by simpa using (text_shape ha).1.ne)
    have lb : 0 < tb.length := List.length_pos_iff.2 (by simpa using (text_shape hb).1.ne)
    simp only [List.length_append] at hl
    obtain ⟨w, hw⟩ := text_split (n := n) (tgt := tgt) (op := op) ha hb h1 h2 s
    have e : (ta ++ (b1 ++ (op.sym ++ (b2 ++ tb)))).reverse =
        tb.reverse ++ (b2.reverse ++ (op.sym.reverse ++ (b1.reverse ++ ta.reverse))) := by simp
    rw [e]
    refine .toward hw (.after (buf s w) ?_)
    have hp' : Able keys { s with bufpos := w } := hp.tstar (buf s w)
    refine both_sure (iha n tgt _ (by omega) hp' (fun x hx => hk x (by simp [Spec.Expr.names, hx]))) fun r s' _ hst => ?_
    exact ihb n false s' (by omega) (hp'.tstar hst) fun x hx => hk x (by simp [Spec.Expr.names, hx])
  | @neg k a ta b1 _ _ ha h1 ih =>
    intro n tgt s hl hp hk
    obtain ⟨n, rfl⟩ := succ hl
    simp only [List.length_append, List.length_cons] at hl
    obtain ⟨w, hw⟩ := text_minus (n := n) (tgt := tgt) ha h1 s
    have e : ('-' :: (b1 ++ ta)).reverse = ta.reverse ++ (b1.reverse ++ ['-']) := by simp
    rw [e]
    exact .toward hw (.after (buf s w) (one_sure (op := .neg) (ih n tgt _ (by omega) (hp.tstar (buf s w)) hk)))
  | @not k a ta b1 _ ha h1 ih =>
    intro n tgt s hl hp hk
    obtain ⟨n, rfl⟩ := succ hl
    simp only [List.length_append, List.length_cons] at hl
    obtain ⟨w, hw⟩ := text_not (n := n) (tgt := tgt) ha h1 s
    have e : ('~' :: (b1 ++ ta)).reverse = ta.reverse ++ (b1.reverse ++ ['~']) := by simp
    rw [e]
    exact .toward hw (.after (buf s w) (one_sure (op := .not) (ih n tgt _ (by omega) (hp.tstar (buf s w)) hk)))
  | @lo k k' a t b0 b1 b2 l o hl ho ha h0 h1 h2 ih =>
    intro n tgt s hln hp hk
    obtain ⟨n, rfl⟩ := succ hln
    simp only [List.length_append, List.length_cons, List.length_nil] at hln
    obtain ⟨w, hw⟩ := parse2_lo (n := n) (tgt := tgt) hl ho (text_shape ha).1 (blank_of h0) (blank_of h2) (blank_of h1) s
    have e : (l :: o :: (b0 ++ '(' :: (b1 ++ (t ++ (b2 ++ [')']))))).reverse =
        ')' :: (b2.reverse ++ (t.reverse ++ (b1.reverse ++ '(' :: (b0.reverse ++ [o, l])))) := by simp
    rw [e]
    exact .toward hw (.after (buf s w) (one_sure (op := .lo) (ih n tgt _ (by omega) (hp.tstar (buf s w)) hk)))
  | @hi k k' a t b0 b1 b2 l o hl ho ha h0 h1 h2 ih =>
    intro n tgt s hln hp hk
    obtain ⟨n, rfl⟩ := succ hln
    simp only [List.length_append, List.length_cons, List.length_nil] at hln
    obtain ⟨w, hw⟩ := parse2_hi (n := n) (tgt := tgt) hl ho (text_shape ha).1 (blank_of h0) (blank_of h2) (blank_of h1) s
    have e : (l :: o :: (b0 ++ '(' :: (b1 ++ (t ++ (b2 ++ [')']))))).reverse =
        ')' :: (b2.reverse ++ (t.reverse ++ (b1.reverse ++ '(' :: (b0.reverse ++ [o, l])))) := by simp
    rw [e]
    exact .toward hw (.after (buf s w) (one_sure (op := .hi) (ih n tgt _ (by omega) (hp.tstar (buf s w)) hk)))
  | @paren k k' a t b1 b2 ha h1 h2 ih =>
    intro n tgt s hln hp hk
    obtain ⟨n, rfl⟩ := succ hln
    simp only [List.length_append, List.length_cons, List.length_nil] at hln
    obtain ⟨w, hw⟩ := parse2_paren (n := n) (tgt := tgt) (text_shape ha).1 (blank_of h2) (blank_of h1) s
    have e : ('(' :: (b1 ++ (t ++ (b2 ++ [')'])))).reverse = ')' :: (b2.reverse ++ (t.reverse ++ (b1.reverse ++ ['(']))) := by simp
    rw [e]
    exact .toward hw (.after (buf s w) (ih n tgt _ (by omega) (hp.tstar (buf s w)) hk))

/-- Evaluating an expression in known or fresh names never fails. -/
theorem parse_sure {keys : Str → Prop} {k : Spec.Level} {e : Spec.Expr} {t : Str} (h : Spec.Text k e t) {s : St} (hp : Able keys s)
    (hk : ∀ x ∈ e.names, ¬ keys (canon 0 x) ∧ N (canon 0 x)) : Sure N e.names s (parse (some t) s) := by
  have hs := (text_shape h).1
  obtain ⟨l, k, hl⟩ := parse_start (t := t) (by simpa using hs.ne) (fun c hc => hs.quotes c (List.mem_reverse.2 hc)) s
  have st : Star (TStep N) (s, .live) ({ s with lst := l, bufpos := k }, .live) := .one (.scratch s l k s.calcR s.flags.listOn)
  exact .toward hl (.after st (text_sure h _ true _ (by omega) (hp.tstar st) hk))

/-- A name that is known already. -/
theorem label_goes {t : Str} (h : Spec.IsName t) {s : St} (hseg : s.segment = 0) (hf : (s.tree.find (canon 0 t)).isSome) :
    Goes N s (parse (some t) s) := by
  have hs := (text_shape (.label (k := .tight) h)).1
  obtain ⟨l, k, hl⟩ := parse_start (t := t) (by simpa using hs.ne) (fun c hc => hs.quotes c (List.mem_reverse.2 hc)) s
  have st : Star (TStep N) (s, .live) ({ s with lst := l, bufpos := k }, .live) := .one (.scratch s l k s.calcR s.flags.listOn)
  refine .toward hl (.after st ?_)
  have hpl := (name_facts h).2.1
  have hr : ∀ c ∈ t.reverse, plainChar c = true := fun c hc => hpl c (List.mem_reverse.1 hc)
  have := parse2_leaf (n := t.length) (tgt := true) hr { s with lst := l, bufpos := k }
  rw [creverse_plain (plain_quote hr), List.reverse_reverse] at this
  refine .toward this ?_
  unfold parseLeaf
  rw [if_pos (name_facts h).2.2]
  unfold cstlabel
  generalize hs1 : ({ s with lst := l, bufpos := k } : St) = s1
  have hseg : s1.segment = 0 := by rw [← hs1]; exact hseg
  have hf : (s1.tree.find (canon 0 t)).isSome := by rw [← hs1]; exact hf
  refine .bind ?_ fun a s' _ _ => (Walk.goes (by walk) s')
  have hfl : findlabel t s1 = .ok (usedLabel s1 (s1.tree.find (canon 0 t)))
      { s1 with tree := s1.tree.put (canon 0 t) (usedLabel s1 (s1.tree.find (canon 0 t))) } := by
    rw [← hseg]
    unfold findlabel searchlabel usedLabel
    cases h : s1.tree.find (canon s1.segment t) <;> simp only [getS_bind_run, h] <;> rfl
  rw [hfl]
  exact .one (.use s1 _ (.inr hf))

/-! ### The statements -/

instance (v : BitVec 32) (m : Nat) : W (TStep N) (C6502.opcodeFor v m) := ⟨by unfold C6502.opcodeFor; walk⟩
instance (c : BitVec 32) (o : Option Str) : W (TStep N) (C6502.single c o) := ⟨by unfold C6502.single; walk⟩

theorem Goes.getS {s : St} {f : St → M α} (h : Goes N s (f s s)) : Goes N s ((getS >>= f) s) := by
  rw [getS_bind_run]; exact h

theorem parseAbs_goes {o : Option Str} {s : St} (h : Goes N s (parse o s)) : Goes N s (parseAbs o s) := by
  unfold parseAbs
  exact h.bind fun r s' _ _ => Walk.goes (by walk) s'

theorem relBranch_goes {c : BitVec 32} {o : Option Str} {s : St} (h : Goes N s (parse o s)) : Goes N s (relBranch c o s) := by
  unfold relBranch
  exact (parseAbs_goes h).bind fun r s' _ _ => Walk.goes (by walk) s'

theorem operand_goes {m : Nat} {t : Str} {s : St} (h : Goes N s (parse (some t) s)) : Goes N s (C6502.operand m t s) := by
  unfold C6502.operand
  exact h.bind fun r s' _ _ => Walk.goes (by walk) s'

theorem stocke_goes {o : Option Str} {m : Int} {s : St} (h : Goes N s (parse o s)) : Goes N s (stocke o m s) := by
  unfold stocke
  exact (parseAbs_goes h).bind fun r s' _ _ => Walk.goes (by walk) s'

end Crasm
