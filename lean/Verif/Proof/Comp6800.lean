import Verif.Proof.Comp
import Verif.Proof.Prog6800

/-! The instructions of the 6800, 6801 and 6803 are accepted. -/

namespace Crasm.C43
open _root_.Spec.M6800 (Chip Form Written Meaning encode bare Ins Writes Code isa forJsr)
open C23 C42 C6800

/-- An indexed operand that is too long: the error is found after the two bytes. -/
theorem index_long {k : H6800} (hk : k ∈ operandKinds) {md : Int} {o : Str} {v : BitVec 32} {s0 s s' : St}
    (h : findmode (some o) addmodes s0 = .ok (0x20, v) s) (ho : s.flags.orgGv = true) (hb : bigB v = true)
    (he : C6800.call k md (some o) s0 = .err s') :
    ∃ bs s2 msg, Gen bs s s2 ∧ bs.length = 2 ∧ (error msg : M Unit) s2 = .err s' := by
  have hc : codemode (BitVec.ofInt 32 md) 0x20 v s = .err s' := by
    simp only [operandKinds, List.mem_cons, List.not_mem_nil, or_false] at hk
    rcases hk with rfl | rfl | rfl
    · change C6800.standard (BitVec.ofInt 32 md) (some o) s0 = _ at he
      unfold C6800.standard at he
      rw [run_ok h] at he
      exact he
    · change C6800.standard2 (BitVec.ofInt 32 md) (some o) s0 = _ at he
      unfold C6800.standard2 at he
      rw [run_ok h] at he
      change (codemode (BitVec.ofInt 32 md) 0x20 v >>= fun _ => pure ()) s = _ at he
      rw [bind_run] at he
      cases e : codemode (BitVec.ofInt 32 md) 0x20 v s with
      | ok u s1 => rw [e] at he; cases he
      | err s1 => rw [e] at he; exact he
      | stop w s1 => rw [e] at he; cases he
    · change C6800.standard3 (BitVec.ofInt 32 md) (some o) s0 = _ at he
      unfold C6800.standard3 at he
      rw [run_ok h] at he
      change (codemode (BitVec.ofInt 32 md) 0x20 v >>= fun _ => pure ()) s = _ at he
      rw [bind_run] at he
      cases e : codemode (BitVec.ofInt 32 md) 0x20 v s with
      | ok u s1 => rw [e] at he; cases he
      | err s1 => rw [e] at he; exact he
      | stop w s1 => rw [e] at he; cases he
  unfold codemode at hc
  rcases insert8_no_err (x := lowByte (BitVec.ofInt 32 md + 0x20)) (s := s) ho with ⟨s2, e2, g2⟩ | ⟨w, s2, e⟩
  rotate_left
  · rw [run_stop e] at hc; cases hc
  rw [run_ok e2, if_neg (by rintro ⟨h, -⟩; exact absurd h (by decide)), if_neg (by decide)] at hc
  rcases insert8_no_err (x := lowByte v) (s := s2) (by rw [g2.orgGv]; exact ho) with ⟨s3, e3, g3⟩ | ⟨w, s3, e⟩
  rotate_left
  · rw [run_stop e] at hc; cases hc
  rw [run_ok e3, if_pos (of_decide_eq_true hb), if_pos rfl] at hc
  exact ⟨_, s3, _, g2.trans g3, rfl, hc⟩

/-- What can be assembled does not depend on the value of a name that is defined further below, except for indexed
    operands. -/
theorem mode_late {c : Chip} {n : Str} {f : Form} (hf : f ≠ .index) (x y : Bool) :
    _root_.Spec.M6800.mode c n f x true = _root_.Spec.M6800.mode c n f y true := by
  unfold _root_.Spec.M6800.mode
  cases f with
  | imm => rfl
  | index => exact absurd rfl hf
  | addr => simp only [Bool.not_true, Bool.and_false]

/-- How an instruction with an operand fares. -/
theorem operand_comes {c : Chip} {e : Entry} (he : e ∈ table c) {k : H6800} (hk : kindOfOp e = some k) {f : Form} {t o : Str} (hw : Written f t o)
    {Q : Prop} {names : List Str} {late : Bool} {x : Int} {bs : List Byte} {s : St} (ho : s.flags.orgGv = true) (hl : s.flags.lohi = false)
    (hsure : ∀ b s', parse (some t) { s with bufpos := b } ≠ .err s')
    (hr : ∀ b r s1, parse (some t) { s with bufpos := b } = .ok r s1 → r.type = .absolute ∧ (∀ x ∈ names, Has s1 (canon s.segment x)) ∧
      r.flags.forward = late ∧ ((late = false ∨ ¬ Q) → r.value.toNat % 65536 = (x % 65536).toNat))
    (henc : encode (forJsr c (C22.upper e)) (C22.upper e) f (.num (x % 65536).toNat late) = some bs) :
    Comes Q names bs.length s ((do C6800.call k e.label.modifier (some o); pure RC.cont : M RC) s) := by
  obtain ⟨g, hg, -⟩ := call_first (kind_ptr hk).2 e.label.modifier o
  have hstop : ∀ {w s1}, findmode (some o) addmodes s = .stop w s1 →
      Comes Q names bs.length s ((do C6800.call k e.label.modifier (some o); pure RC.cont : M RC) s) := by
    intro w s1 h
    rw [hg, bind_assoc, run_stop h]
    trivial
  obtain ⟨b, hb | ⟨s3, hb⟩⟩ := form_text hw s
  rotate_left
  · exact hstop hb
  cases hp : parse (some t) { s with bufpos := b } with
  | err s1 => exact absurd hp (hsure b s1)
  | stop w s1 =>
    refine hstop (w := w) (s1 := s1) ?_
    rw [hb]
    unfold modeValue parseAbs
    rw [bind_assoc, run_stop hp]
  | ok r s1 =>
  obtain ⟨hty, hn, hfw, hv⟩ := hr b r s1 hp
  have hfind := hb
  rw [modeValue_run hp hty] at hfind
  have g1 : Gen [] s s1 := by
    have := (gen_bufpos s b).trans (nwalk_gen W.walk hp)
    simpa using this
  have hm := call_run (kind_ptr hk).2 (md := e.label.modifier) hfind (by rw [g1.orgGv]; exact ho) (by rw [g1.lohi]; exact hl)
  have henc1 := plan_enc16 he hk f r
  cases hc : C6800.call k e.label.modifier (some o) s with
  | stop w s2 => rw [run_stop hc]; trivial
  | ok u s2 =>
    rw [run_ok hc]
    rw [hc] at hm
    obtain ⟨bs', -, g2⟩ := hm
    intro x hx
    exact (hn x hx).alike g2.tree
  | err s2 =>
    rw [run_err hc]
    rw [hc] at hm
    have hm : (plan k (BitVec.ofInt 32 e.label.modifier) f (bigB (r.value.setWidth 32)) r.flags.forward).map (bytesHL (r.value.setWidth 32)) = none := hm
    rw [hm] at henc1
    by_cases hvv : late = false ∨ ¬ Q
    · rw [hv hvv, hfw, henc] at henc1
      cases henc1
    · have hQ : Q := Classical.byContradiction fun h => hvv (.inr h)
      have hlate : late = true := by cases late with | true => rfl | false => exact absurd (.inl rfl) hvv
      rw [hfw, hlate] at henc1
      rw [hlate] at henc
      change (_root_.Spec.M6800.mode _ _ _ _ _).map _ = none at henc1
      change (_root_.Spec.M6800.mode _ _ _ _ _).map _ = some bs at henc
      rw [Option.map_eq_none_iff] at henc1
      by_cases hf : f = .index
      · subst hf
        have hbig : bigB (r.value.setWidth 32) = true := by
          have h1 := Option.map_eq_none_iff.1 hm
          cases hbb : bigB (r.value.setWidth 32) with
          | true => rfl
          | false =>
            exfalso
            rw [agree16 he hk, hbb] at h1
            rw [Option.map_eq_none_iff] at h1
            obtain ⟨⟨op, n⟩, j1, -⟩ := Option.map_eq_some_iff.1 henc
            unfold _root_.Spec.M6800.mode at j1 h1
            dsimp only at j1 h1
            split at j1
            · simp only [Bool.not_false, if_true] at h1
              rw [h1] at j1
              cases j1
            · cases j1
        obtain ⟨bs', s3, msg, j1, j2, j3⟩ := index_long (kind_ptr hk).2 (md := e.label.modifier) hfind (by rw [g1.orgGv]; exact ho) hbig hc
        refine ⟨hQ, bs', s3, msg, by simpa using g1.trans j1, ?_, fun x hx => (hn x hx).alike j1.tree, j3⟩
        obtain ⟨⟨op, n⟩, q1, rfl⟩ := Option.map_eq_some_iff.1 henc
        unfold _root_.Spec.M6800.mode at q1
        dsimp only at q1
        split at q1
        · obtain ⟨_, -, q2⟩ := Option.map_eq_some_iff.1 q1
          cases q2
          rw [j2, if_pos rfl]
          rfl
        · cases q1
      · rw [mode_late hf _ (decide ((x % 65536).toNat < 256))] at henc1
        rw [henc1] at henc
        cases henc

theorem takes (c : Chip) : Takes (isa c) (table c) none := by
  constructor
  intro i m o hw
  cases hw with
  | bare hb =>
    have hc := covered (bare_mem hb)
    unfold covers at hc
    simp only [Bool.and_eq_true, Bool.or_eq_true, decide_eq_true_eq] at hc
    obtain ⟨e, he, rfl, hi, hp⟩ := has_iff (hc.1.1.resolve_left hb)
    have hx : e.label.ptr = .handler (.h6800 .single) := of_decide_eq_true hp
    refine ⟨e, he, rfl, _, hx, fun {keys ρ ρ1 φ bs self fuel label s} hr _ _ _ _ hcode _ => .not (fun s' hs' => ?_) fun a s' _ n hn => by cases hn⟩
    obtain ⟨h', e', hm⟩ := C23_bare (self := self) (fuel := fuel) (label := label) he (.inl hp) hr.org
    rw [hx] at e'
    cases e'
    rw [hs'] at hm
    exact hb hm
  | @oper n f e' k t o hb hwr ht =>
    obtain ⟨a, b, hb⟩ := hb
    have hc := covered (jsr_mem (mode_mem hb))
    unfold covers at hc
    simp only [Bool.and_eq_true] at hc
    have hc := List.all_eq_true.1 (List.all_eq_true.1 (List.all_eq_true.1 hc.1.2 f (mem_forms f)) a (by cases a <;> decide)) b (by cases b <;> decide)
    simp only [Bool.or_eq_true, decide_eq_true_eq] at hc
    obtain ⟨e, he, rfl, hi, hp⟩ := has_iff (hc.resolve_left hb)
    obtain ⟨k', hk⟩ := Option.isSome_iff_exists.1 hp
    refine ⟨e, he, rfl, _, (kind_ptr hk).1, fun {keys ρ ρ1 φ bs self fuel label s} hr hab hkeys hout hval hcode hsame => ?_⟩
    cases hcode with
    | @oper _ _ _ x _ hx henc =>
    refine operand_comes (x := x) he hk hwr hr.org hr.lohi (fun b s' h => ?_) (fun b r s1 h => ?_) henc
    · have := parse_sure (N := fun _ => True) ht (fit_buf hab b) fun n hn => ⟨hkeys n hn, trivial⟩
      rw [h] at this
      exact this
    · obtain ⟨q1, q2⟩ := parse_tells (P := True) (ρ := ρ1) (φ := φ) (s := { s with bufpos := b }) ht (ready_buf hr b).numeric hout hval h
      obtain ⟨q3, q4⟩ := q2 trivial
      refine ⟨q1, parse_enter (s := { s with bufpos := b }) ht h, q4, fun hv => ?_⟩
      have : e'.eval ρ = e'.eval ρ1 := eval_same e' fun n hn => by
        rcases hv with hv | hv
        · refine hsame n hn ?_
          rw [List.any_eq_false] at hv
          simpa using hv n hn
        · exact Classical.not_not.1 hv n hn
      rw [this, q3] at hx
      cases hx
      exact (toNat_mod _).symm
  | @branch n e' k o hb ht =>
    have hc := covered (opcode_mem hb)
    unfold covers at hc
    simp only [Bool.and_eq_true] at hc
    obtain ⟨op, hop⟩ := Option.ne_none_iff_exists'.1 hb
    have hc := hc.2
    rw [hop] at hc
    obtain ⟨e, he, rfl, hi, hp⟩ := has_iff hc
    simp only [Bool.and_eq_true, decide_eq_true_eq] at hp
    refine ⟨e, he, rfl, _, hp.2, fun {keys ρ ρ1 φ bs self fuel label s} hr hab hkeys hout hval hcode hsame => ?_⟩
    cases hcode with
    | @branch _ op' x _ d hop' hx hd =>
    refine rel_comes hr.org (fun s' h => ?_) fun r s1 h => ?_
    · have := parse_sure (N := fun _ => True) ht hab fun n hn => ⟨hkeys n hn, trivial⟩
      rw [h] at this
      exact this
    · obtain ⟨q1, q2⟩ := parse_tells (P := True) (ρ := ρ1) (φ := φ) ht hr.numeric hout hval h
      refine ⟨q1, parse_enter ht h, fun hno hall => ?_⟩
      have : e'.eval ρ = e'.eval ρ1 := eval_same e' hall
      rw [this, (q2 trivial).1] at hx
      cases hx
      exact hno d hd

end Crasm.C43
