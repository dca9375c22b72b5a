import Verif.Proof.Big
import Verif.Proof.Digits
import Verif.Proof.Stmt
import Verif.Spec.Expr
import Verif.Props.C14
import Verif.Props.C05
import Verif.Props.C11

/-!
  **C19** Local labels are confined to their scope.
-/

namespace Crasm

/-- From `s` to `s'` the scope is the same, or it is one that did not exist in `s`. -/
def Sc (s s' : St) : Prop :=
  s.thiscall ≤ s'.thiscall ∧ (s'.segment = s.segment ∨ (s.thiscall < s'.segment ∧ s'.segment ≤ s'.thiscall))

instance : Pre Sc where
  refl s := ⟨Nat.le_refl _, .inl rfl⟩
  trans := by
    rintro a b c ⟨h1, h2⟩ ⟨h3, h4⟩
    refine ⟨Nat.le_trans h1 h3, ?_⟩
    rcases h4 with h4 | ⟨h4, h5⟩
    · rcases h2 with h2 | ⟨h2, h6⟩
      · exact .inl (h4.trans h2)
      · exact .inr ⟨h4 ▸ h2, by omega⟩
    · exact .inr ⟨by omega, h5⟩

theorem sc_same {s s' : St} (h : s'.thiscall = s.thiscall) (h' : s'.segment = s.segment) : Sc s s' := ⟨by omega, .inl h'⟩

instance : PreP Sc where
  step := by
    intro a b h
    cases h with
    | h h =>
      cases h with
      | n h => cases h <;> exact sc_same rfl rfl
      | emit s x ho hc => exact sc_same rfl rfl
      | lohi s b => exact sc_same rfl rfl
      | note s b => exact sc_same rfl rfl
    | sect s on => exact ⟨Nat.le_succ _, .inr ⟨Nat.lt_succ_self _, Nat.le_refl _⟩⟩
    | _ => exact sc_same rfl rfl

instance : PreL Sc where
  tree _ _ := sc_same rfl rfl
  errs _ _ := sc_same rfl rfl
  notes _ _ := sc_same rfl rfl
  advance _ _ := sc_same rfl rfl
  start := ⟨fun s => by rw [startLine_eq]; exact sc_same rfl rfl⟩

theorem popEnds_scope (src : List Src) : ∀ s, (popEnds src s).thiscall = s.thiscall ∧ (popEnds src s).segment = s.segment := by
  induction src with
  | nil => intro s; exact ⟨rfl, rfl⟩
  | cons c cs ih =>
    intro s
    unfold popEnds
    split
    · rename_i heq
      injection heq with _ h2
      subst h2
      exact ih _
    · exact ⟨rfl, rfl⟩

instance : PreR Sc where
  read := by
    unfold linegets
    refine B.bind (B.modS fun s => sc_same (popEnds_scope _ s).1 (popEnds_scope _ s).2) fun _ => ?_
    have hk : ∀ k, B Sc (modS fun s => { s with curline := k }) := big_curline
    have ht : ∀ l, B Sc (takeLine l) := by
      intro l
      unfold takeLine
      refine B.bind (hk _) fun _ => B.bind (by big) fun _ => B.modS fun s => sc_same rfl rfl
    refine B.bind B.getS fun s => ?_
    split
    · exact B.bind (ht _) fun _ => B.modS fun s => sc_same rfl rfl
    · split
      · exact B.bind (ht _) fun _ => B.modS fun s => sc_same rfl rfl
      · split
        · big
        · exact B.bind (B.modS fun s => sc_same rfl rfl) fun _ => B.bind (B.modS fun s => sc_same rfl rfl) fun _ => by big

/-! ## Macro expansions -/

/-- From `s` to `s'` the scope is the same. -/
def ScE (s s' : St) : Prop := s.thiscall ≤ s'.thiscall ∧ s'.segment = s.segment

theorem ends_bind {R : St → St → Prop} {m : M α} {f : α → M β} {a s : St} (h : Ends R a (m s))
    (h' : ∀ x s', m s = .ok x s' → R a s' → Ends R a (f x s')) : Ends R a ((m >>= f) s) := by
  rw [bind_run]
  cases e : m s with
  | ok x s' => rw [e] at h; exact h' x s' e h
  | err s' => rw [e] at h; exact h
  | stop w s' => trivial

theorem ends_n {m : M α} (hw : Walk NStep m) {a s : St} (h : ScE a s) : Ends ScE a (m s) := by
  have key : ∀ {c d : Cfg}, Star NStep c d → d.1.thiscall = c.1.thiscall ∧ d.1.segment = c.1.segment := by
    intro c d h
    induction h with
    | refl => exact ⟨rfl, rfl⟩
    | tail _ r ih => cases r <;> exact ih
  have := hw s
  cases e : m s with
  | ok x s' => rw [e] at this; obtain ⟨h1, h2⟩ := key this; exact ⟨h1 ▸ h.1, h2.trans h.2⟩
  | err s' => rw [e] at this; obtain ⟨h1, h2⟩ := key this; exact ⟨h1 ▸ h.1, h2.trans h.2⟩
  | stop w s' => trivial

theorem ends_mod {f : St → St} {a s : St} (h : ScE a (f s)) : Ends ScE a (modS f s) := h

theorem macroRun_scope {self : Status → M RC} (hs : ∀ st, B Sc (self st)) (st : Status) (n : Nat) {a s : St} (h : a.thiscall ≤ s.thiscall) :
    ∀ r s', macroRun self st n s = .ok r s' → a.thiscall ≤ s'.thiscall := by
  intro r s' e
  have := (big_macroRun hs st n).run s
  rw [e] at this
  exact Nat.le_trans h this.1

theorem macroRun_no_err {self : Status → M RC} (st : Status) (n : Nat) : NoErr (macroRun self st n) := by
  induction n with
  | zero => intro s s' h; cases h
  | succ n ih =>
    unfold macroRun
    refine NoErr.bind ?_ fun r => ?_
    · intro s s' h
      unfold catchErr at h
      split at h
      · cases h
      · rename_i hne; exact hne _ h
    · split
      · exact ih
      · intro s s' h; cases h

theorem call_scope {self : Status → M RC} (hs : ∀ st, B Sc (self st)) (f : Nat) (k : Str) (lab : Label) (st : Status) (o : Option Str) (s : St) :
    Ends ScE s (macrocall self f k lab st o s) := by
  unfold macrocall
  have h0 : Ends ScE s (markUsed k s) := by
    show ScE s _
    dsimp only
    split <;> exact ⟨Nat.le_refl _, rfl⟩
  refine ends_bind h0 fun _ s1 _ h1 => ?_
  refine ends_bind (ends_n W.walk h1) fun _ s2 _ h2 => ?_
  rw [getS_bind_run]
  refine ends_bind (ends_n W.walk h2) fun args s3 _ h3 => ?_
  cases lab.ptr with
  | lines ls =>
    refine ends_bind (ends_n (by walk) h3) fun _ s4 _ h4 => ?_
    rw [modS_bind_run]
    rw [bind_run]
    cases e : macroRun self (st.and ⟨s2.flags.macrolistOn, true⟩) f _ with
    | stop w s5 => trivial
    | err s5 => exact absurd e (macroRun_no_err _ _ _ _)
    | ok r s5 =>
      have h5 : s.thiscall ≤ s5.thiscall := macroRun_scope hs _ _ (by exact Nat.le_succ_of_le h4.1) _ _ e
      dsimp only
      rw [modS_bind_run]
      have h6 : ScE s { s5 with
          macrolevel := s5.macrolevel - 1, linenumber := s2.linenumber, lineprefix := s2.lineprefix,
          flags := { s5.flags with listOn := s2.flags.listOn },
          stack := s5.stack.drop (s5.stack.length - s2.stack.length), segment := s2.segment } := ⟨h5, h2.2⟩
      split
      · exact ends_n W.walk h6
      · rw [getS_bind_run]
        split
        · rw [modS_bind_run]
          exact ends_n (by walk) h6
        · exact h6
  | _ => trivial

instance : PreM Sc where
  call {self} hs f k lab st o := ⟨fun s => by
    have := call_scope hs f k lab st o s
    revert this
    cases macrocall self f k lab st o s with
    | ok a s' => exact fun h => ⟨h.1, .inl h.2⟩
    | err s' => exact fun h => ⟨h.1, .inl h.2⟩
    | stop w s' => exact fun _ => trivial⟩

/-! ## Names -/

namespace Spec

/-- Two spellings of one name: the case of letters does not matter. -/
def SameName (x y : List Char) : Prop := x.map Char.toUpper = y.map Char.toUpper

/-- A local name: it starts with a dot. -/
def IsLocal (x : List Char) : Prop := x.head? = some '.'

end Spec

theorem canon_local {seg : Nat} {x : Str} (h : Spec.IsLocal x) (hn : (digits seg).length + x.length ≤ 48) :
    canon seg x = digits seg ++ x.map toupper := by
  cases x with
  | nil => cases h
  | cons c cs =>
    cases h
    unfold canon
    refine List.take_of_length_le ?_
    simp only [List.length_append, List.length_map]
    exact hn

theorem canon_global {seg : Nat} {x : Str} (h : ¬ Spec.IsLocal x) : canon seg x = (x.map toupper).take 48 := by
  unfold canon
  cases x with
  | nil => rfl
  | cons c cs =>
    split
    · rename_i heq; injection heq with h1 _; exact absurd (by rw [h1]; rfl) h
    · rfl

theorem split_at_dot {a b c d : Str} (ha : ∀ x ∈ a, isdigit x = true) (hb : ∀ x ∈ b, isdigit x = true) (h : a ++ '.' :: c = b ++ '.' :: d) :
    a = b ∧ c = d := by
  induction a generalizing b with
  | nil =>
    cases b with
    | nil => simpa using h
    | cons y b =>
      injection h with h1 _
      have := hb y (by simp)
      rw [← h1] at this
      exact absurd this (by decide)
  | cons x a ih =>
    cases b with
    | nil =>
      injection h with h1 _
      have := ha x (by simp)
      rw [h1] at this
      exact absurd this (by decide)
    | cons y b =>
      injection h with h1 h2
      obtain ⟨h3, h4⟩ := ih (fun z hz => ha z (by simp [hz])) (fun z hz => hb z (by simp [hz])) h2
      exact ⟨by rw [h1, h3], h4⟩

theorem map_toupper (x : Str) : x.map toupper = x.map Char.toUpper := List.map_congr_left fun c _ => toupper_eq c

theorem global_char {c : Char} (h : c.isAlpha ∨ c = '_') : isdigit (toupper c) = false ∧ toupper c ≠ '.' := by
  have hk : ∀ k < 123, ((Char.ofNat k).isAlpha ∨ Char.ofNat k = '_') →
      isdigit (toupper (Char.ofNat k)) = false ∧ toupper (Char.ofNat k) ≠ '.' := by decide +kernel
  have hc : c.toNat < 123 := by
    rcases h with h | h
    · exact alpha_range (by simp [Char.isAlphanum, h])
    · subst h; decide
  have := hk c.toNat hc
  rw [Char.ofNat_toNat] at this
  exact this h

/-- **C19**, names: the symbol that a local name denotes in scope number `m` is the one that a name `y` denotes in scope
    number `n` exactly if `y` is the same local name and the scopes are the same.  Nothing is cut off. -/
theorem C19_names {m n : Nat} {x y : Str} (hx : Spec.IsLocal x) (hy : Spec.IsName y) (lx : (digits m).length + x.length ≤ 48)
    (ly : (digits n).length + y.length ≤ 48) : canon m x = canon n y ↔ m = n ∧ Spec.SameName x y := by
  unfold Spec.SameName
  rw [← map_toupper, ← map_toupper, canon_local hx lx]
  by_cases h : Spec.IsLocal y
  · rw [canon_local h ly]
    constructor
    · intro e
      cases x with
      | nil => cases hx
      | cons c cs =>
        cases y with
        | nil => cases h
        | cons d ds =>
          cases hx; cases h
          obtain ⟨h1, h2⟩ := split_at_dot (digits_isdigit m) (digits_isdigit n) (c := cs.map toupper) (d := ds.map toupper) e
          exact ⟨digits_inj h1, by rw [List.map_cons, List.map_cons, h2]⟩
    · rintro ⟨rfl, e⟩; rw [e]
  · rw [canon_global h]
    cases y with
    | nil => exact hy.elim
    | cons d ds =>
      have hd : d.isAlpha ∨ d = '_' := by
        rcases hy.1 with h1 | h1 | h1
        · exact .inl h1
        · exact .inr h1
        · exact absurd (by rw [h1]; rfl) h
      constructor
      · intro e
        exfalso
        cases hm : digits m with
        | nil => exact digits_ne m hm
        | cons a as =>
          rw [hm] at e
          injection e with e1 _
          have h1 := digits_isdigit m a (by rw [hm]; simp)
          rw [e1, (global_char hd).1] at h1
          cases h1
      · rintro ⟨-, e⟩
        exfalso
        cases x with
        | nil => cases hx
        | cons c cs =>
          cases hx
          injection e with e1 _
          exact (global_char hd).2 e1.symm

/-! ## Scopes -/

/-- **C19**, CODE and DUMMY open a new scope. -/
theorem C19_section (n : Nat) (lst on : Bool) (s s1 s' : St) (f : Fields) (rc : RC) (hf : statement s = .ok (some f) s1) {key : Str} {lab : Label}
    (he : f.entry = some (key, lab)) (hp : lab.ptr = .handler (.pseudo (if on then .code else .dummy))) (ht : lab.type = .mnemo)
    (h1 : lab.flags.defcond = false) (h2 : lab.flags.defmacro = false) (h : asmline n ⟨lst, true⟩ s = .ok rc s') :
    s'.segment = s.thiscall + 1 ∧ s'.thiscall = s.thiscall + 1 := by
  cases n with
  | zero => cases h
  | succ n =>
    obtain ⟨fl, e1, -, -⟩ := statement_run (n := n) (st := ⟨lst, true⟩) hf
    rw [e1] at h
    have fr := statement_frame hf
    have hseg : ∀ {m : M Unit} {a b : St}, Walk NStep m → m a = .ok () b → b.segment = a.segment ∧ b.thiscall = a.thiscall := by
      intro m a b hw e
      obtain ⟨_, _, _, _, _, rfl⟩ := nframe (walk_nstar hw e)
      exact ⟨rfl, rfl⟩
    unfold doFields at h
    rw [he] at h
    dsimp only at h
    split at h
    · exact (error_not_ok h).elim
    · obtain ⟨_, s2, g1, h⟩ := bind_ok h
      have hs2 : s2.thiscall = s.thiscall := by
        have : ∀ x, herelabel x s1 = .ok () s2 → s2.thiscall = s1.thiscall := by
          intro x hx
          unfold herelabel at hx
          split at hx
          · exact (error_not_ok hx).elim
          · rw [getS_bind_run] at hx
            split at hx
            · obtain ⟨k, s3, h3, h4⟩ := bind_ok hx
              obtain ⟨_, s4, h5, h4⟩ := bind_ok h4
              cases h5
              rw [(hseg (by walk) h4).2]
              change s3.thiscall = s1.thiscall
              rcases deflabel_run x { noredef := true } (addrType s1.flags) (starLabel s1).value s1 with ⟨msg, e⟩ | ⟨-, e⟩
              · rw [e] at h3; exact (error_not_ok h3).elim
              · rw [e] at h3; cases h3; rfl
            · exact (error_not_ok hx).elim
        rw [← fr.2.2.2.2.1]
        revert g1
        cases f.label with
        | none =>
          intro g1
          exact (hseg (m := whenM lab.flags.deflabel (error _)) (by walk) g1).2
        | some x =>
          intro g1
          change whenM _ (herelabel x) s1 = _ at g1
          unfold whenM at g1
          split at g1
          · exact this x g1
          · cases g1; rfl
      unfold execLine at h
      rw [h1, h2, if_neg (by decide), if_neg (by rw [ht]; decide), if_pos ht, hp] at h
      obtain ⟨_, s3, g3, h⟩ := bind_ok h
      have e3 : s3.segment = s.thiscall + 1 ∧ s3.thiscall = s.thiscall + 1 := by
        have key : ∀ b, xCode b f.oper s2 = .ok () s3 → s3.segment = s2.thiscall + 1 ∧ s3.thiscall = s2.thiscall + 1 := by
          intro b hx
          unfold xCode at hx
          split at hx
          · exact (error_not_ok hx).elim
          · cases hx; exact ⟨rfl, rfl⟩
        rw [hs2] at key
        cases on with
        | true =>
          change ((callHandler _ _ (.pseudo .code) _ _ _ >>= fun _ => pure ()) : M Unit) s2 = _ at g3
          obtain ⟨_, s4, g4, e⟩ := bind_ok g3
          cases e
          change ((xCode true f.oper >>= fun _ => pure RC.cont) : M RC) s2 = _ at g4
          obtain ⟨_, s5, g5, e⟩ := bind_ok g4
          cases e
          exact key _ g5
        | false =>
          change ((callHandler _ _ (.pseudo .dummy) _ _ _ >>= fun _ => pure ()) : M Unit) s2 = _ at g3
          obtain ⟨_, s4, g4, e⟩ := bind_ok g3
          cases e
          change ((xCode false f.oper >>= fun _ => pure RC.cont) : M RC) s2 = _ at g4
          obtain ⟨_, s5, g5, e⟩ := bind_ok g4
          cases e
          exact key _ g5
      obtain ⟨_, s4, g4, h⟩ := bind_ok h
      have e4 : s4.segment = s3.segment ∧ s4.thiscall = s3.thiscall := by
        unfold bumpStar at g4
        rw [getS_bind_run] at g4
        revert g4
        cases addS (starLabel s3).value (BitVec.ofInt 64 s3.advance) with
        | none => intro g4; cases g4
        | some v => intro g4; cases g4; exact ⟨rfl, rfl⟩
      obtain ⟨_, s5, g5, h⟩ := bind_ok h
      cases h
      have e5 := hseg (by walk) g5
      exact ⟨e5.1.trans (e4.1.trans e3.1), e5.2.trans (e4.2.trans e3.2)⟩

/-- **C19**, a macro call that comes to its end has run its lines in a new scope. -/
theorem C19_expansion (self : Status → M RC) (fuel : Nat) (key : Str) (lab : Label) (st : Status) (o : Option Str) (s s' : St)
    (h : macrocall self fuel key lab st o s = .ok () s') :
    ∃ st' s1 r s2, macroRun self st' fuel s1 = .ok r s2 ∧ s1.segment = s.thiscall + 1 ∧ s1.thiscall = s.thiscall + 1 ∧
      s'.thiscall = s2.thiscall := by
  have hseg : ∀ {α : Type} {m : M α} {x : α} {a b : St}, Walk NStep m → m a = .ok x b → b.segment = a.segment ∧ b.thiscall = a.thiscall := by
    intro α m x a b hw e
    obtain ⟨_, _, _, _, _, rfl⟩ := nframe (walk_nstar hw e)
    exact ⟨rfl, rfl⟩
  unfold macrocall at h
  obtain ⟨_, s1, h1, h⟩ := bind_ok h
  have e1 : s1.thiscall = s.thiscall := by
    unfold markUsed at h1
    cases h1
    dsimp only
    split <;> rfl
  obtain ⟨_, s2, h2, h⟩ := bind_ok h
  rw [getS_bind_run] at h
  obtain ⟨args, s3, h3, h⟩ := bind_ok h
  have e3 : s3.thiscall = s.thiscall := (hseg W.walk h3).2.trans ((hseg W.walk h2).2.trans e1)
  revert h
  cases lab.ptr with
  | lines ls =>
    intro h
    obtain ⟨_, s4, h4, h⟩ := bind_ok h
    have e4 : s4.thiscall = s.thiscall := (hseg (by walk) h4).2.trans e3
    rw [modS_bind_run] at h
    obtain ⟨r, s5, h5, h⟩ := bind_ok h
    refine ⟨_, _, r, s5, h5, congrArg (· + 1) e4, congrArg (· + 1) e4, ?_⟩
    rw [modS_bind_run] at h
    split at h
    · exact (error_not_ok h).elim
    · rw [getS_bind_run] at h
      split at h
      · rw [modS_bind_run] at h
        exact (hseg (by walk) h).2
      · cases h; rfl
  | _ => intro h; cases h

/-- **C19**, and then returns to the scope of the call. -/
theorem C19_return (n fuel : Nat) (key : Str) (lab : Label) (st : Status) (o : Option Str) (s s' : St)
    (h : macrocall (asmline n) fuel key lab st o s = .ok () s' ∨ macrocall (asmline n) fuel key lab st o s = .err s') :
    s'.segment = s.segment := by
  have := call_scope (big_asmline (R := Sc) n) fuel key lab st o s
  rcases h with h | h <;> rw [h] at this <;> exact this.2

/-- **C19**, lines: after any line, accepted or rejected, the scope is the same as before, or it is a new one: its number
    is greater than that of any scope opened before. -/
theorem C19_line (n : Nat) (st : Status) (rc : RC) (s s' : St) (h : asmline n st s = .ok rc s' ∨ asmline n st s = .err s') :
    s.thiscall ≤ s'.thiscall ∧ (s'.segment = s.segment ∨ (s.thiscall < s'.segment ∧ s'.segment ≤ s'.thiscall)) := by
  have := (big_asmline (R := Sc) n st).run s
  rcases h with h | h <;> rw [h] at this <;> exact this

/-- **C19**, scopes of a pass: a pass starts in scope 0 with no other scope opened, and the number of the scope never
    exceeds the number of scopes opened so far, after any line and after any part of the pass. -/
theorem C19_numbers (n fuel k : Nat) (b : Bool) (s s0 s' : St) :
    (passStart n s0).segment = 0 ∧ (passStart n s0).thiscall = 0 ∧
    (s.segment ≤ s.thiscall → passLoop fuel k b s = .ok () s' → s'.segment ≤ s'.thiscall) ∧
    (s.segment ≤ s.thiscall → ∀ st rc, asmline fuel st s = .ok rc s' ∨ asmline fuel st s = .err s' → s'.segment ≤ s'.thiscall) := by
  refine ⟨rfl, rfl, fun h e => ?_, fun h st rc e => ?_⟩
  · have := (big_passLoop (R := Sc) fuel k b).run s
    rw [e] at this
    obtain ⟨h1, h2⟩ := this
    omega
  · have := C19_line fuel st rc s s' e
    omega

/-- **C19**, so a local name in a scope that is opened now (with number `k`) denotes none of the symbols that names
    could denote in the scope of an earlier state `t` of the pass. -/
theorem C19_apart {t : St} {k : Nat} (ht : t.segment ≤ t.thiscall) (hk : t.thiscall < k) {x y : Str} (hx : Spec.IsLocal x) (hy : Spec.IsName y)
    (lx : (digits k).length + x.length ≤ 48) (ly : (digits t.segment).length + y.length ≤ 48) : canon k x ≠ canon t.segment y := by
  intro h
  have := ((C19_names hx hy lx ly).1 h).1
  omega

/-! ## Concrete cases -/

/-- `.l` is defined in the main scope, in each of two expansions, and in a DUMMY section. -/
def locals : Str := c!"m macro\n.l db lo(.l)\n endm\n*=$10\n.l db lo(.l)\n m\n m\n db lo(.l)\n dummy\n.l db lo(.l)\n code\n"

example : (match assemble 60 { scode := some c!"o", list := false } (initSt { fs := fun _ => none } locals) with
    | .ok _ s => (s.errnumber, (bytesOf s.log).filterMap fun b => if b.1 = 2 then some b.2.2.1 else none)
    | _ => (1, [])) = (0, [0x14, 0x10, 0x12, 0x11, 0x10]) := by decide +kernel
example : Spec.IsLocal c!".l" ∧ Spec.IsName c!".l" ∧ (digits 1234).length + c!".l".length ≤ 48 :=
  ⟨rfl, ⟨.inr (.inr rfl), (by simp), (by decide)⟩, (by decide)⟩
example : canon 3 c!".Loop" = c!"3.LOOP" := by decide

/-- The hypotheses of `C19_section` hold for the DUMMY line. -/
example : (match statement (afterLines locals 6) with
    | .ok (some f) _ => (match f.entry with
        | some (_, lab) => lab.ptr == .handler (.pseudo .dummy) && lab.type == .mnemo && !lab.flags.defcond && !lab.flags.defmacro &&
            (match asmline 60 ⟨true, true⟩ (afterLines locals 6) with | .ok _ s' => s'.segment == 3 | _ => false)
        | none => false)
    | _ => false) = true := by decide +kernel

end Crasm
