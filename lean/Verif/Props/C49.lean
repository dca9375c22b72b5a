import Verif.Proof.Slim
import Verif.Proof.Whole

/-!
  **C49** The listing is a sequence of numbered pages of the length in force, and its lines have at most the length in force.
-/

namespace Crasm
open _root_.Spec.Listing (Remark Listing Page Text print)

/-! ### Numbers -/

theorem spec_digit (d : Nat) (h : d < 10) : Spec.digit 10 (Char.ofNat (48 + d)) = some d := by
  have : ∀ d : Fin 10, Spec.digit 10 (Char.ofNat (48 + d.val)) = some d.val := by decide
  exact this ⟨d, h⟩

theorem digitsAux_spec (f : Nat) : ∀ n acc, n < f → ∃ ds, digitsAux f n acc = ds ++ acc ∧ ds ≠ [] ∧
    ∀ a r, Spec.numberFrom 10 a (ds ++ r) = Spec.numberFrom 10 (a * 10 ^ ds.length + n) r := by
  induction f with
  | zero => intro n acc h; omega
  | succ f ih =>
    intro n acc h
    have hd := spec_digit (n % 10) (by omega)
    have one : ∀ a r, Spec.numberFrom 10 a (Char.ofNat (48 + n % 10) :: r) = Spec.numberFrom 10 (a * 10 + n % 10) r := by
      intro a r
      rw [Spec.numberFrom, hd]
    unfold digitsAux
    dsimp only
    split
    · refine ⟨[Char.ofNat (48 + n % 10)], rfl, by simp, fun a r => ?_⟩
      rw [List.singleton_append, one]
      congr 1
      simp
      omega
    · obtain ⟨ds, h1, h2, h3⟩ := ih (n / 10) (Char.ofNat (48 + n % 10) :: acc) (by omega)
      refine ⟨ds ++ [Char.ofNat (48 + n % 10)], by rw [h1]; simp, by simp, fun a r => ?_⟩
      rw [List.append_assoc, h3, List.singleton_append, one]
      congr 1
      rw [List.length_append, List.length_singleton, Nat.pow_succ]
      have : n / 10 * 10 + n % 10 = n := by omega
      rw [Nat.add_mul, Nat.mul_assoc, Nat.add_assoc, this]

theorem digits_spec (n : Nat) : Spec.number 10 (digits n) = some n ∧ digits n ≠ [] := by
  obtain ⟨ds, h1, h2, h3⟩ := digitsAux_spec (n + 1) n [] (by omega)
  unfold digits
  rw [h1]
  refine ⟨?_, by simp [h2]⟩
  unfold Spec.number
  rw [h3]
  simp [Spec.numberFrom]

/-! ### The invariant -/

/-- What is printed, and how it is counted. -/
structure Sheets (set : List (Nat × Nat)) (l : Lst) (closed : List Page) (last : Option Page) (gap : Nat) : Prop where
  list : Listing set l.out.reverse.flatten closed last gap
  idle : last = none ↔ l.ppos = 0
  number : (closed ++ last.toList).length = l.pagenumber
  lines : (closed ++ last.toList).flatMap Page.body = l.lines.reverse
  count : ∀ p ∈ last, l.ppos ≤ 2 + p.body.length ∧ ((∃ x ∈ set, x.1 = 0) ∨ l.ppos = 2 + p.body.length)

structure Laid (set : List (Nat × Nat)) (l : Lst) : Prop where
  sheets : ∃ closed last gap, Sheets set l closed last gap
  cur : ∃ r, set = (l.plen, l.llen) :: r
  lens : ∀ x ∈ set, (x.1 = 0 ∨ 10 ≤ x.1) ∧ 39 ≤ x.2 ∧ x.2 ≤ 1000
  title : l.title.length ≤ 30
  line : ∃ x ∈ set, l.line.length ≤ x.2
  pos : l.line.length ≤ l.lpos

theorem Laid.mem {set : List (Nat × Nat)} {l : Lst} (h : Laid set l) : (l.plen, l.llen) ∈ set := by
  obtain ⟨r, rfl⟩ := h.cur
  exact .head _

theorem print_append (a b : List Text) : print (a ++ b) = print a ++ print b := by simp [print]

theorem pageHeader_titled {title : Str} (h : title.length ≤ 30) (w n gap : Nat) (body : List Text) :
    ∃ top, pageHeader title w n = top ++ c!"\n\n" ∧ Page.Titled ⟨n, top, body, gap⟩ := by
  refine ⟨_, rfl, title, digits n, _, _, w - 58, h, rfl, (digits_spec n).1, (digits_spec n).2, rfl, ?_⟩
  simp [padLeft]

/-- A page is begun. -/
theorem Sheets.begin {set : List (Nat × Nat)} {l : Lst} {closed : List Page} {last : Option Page} {gap : Nat}
    (h : Sheets set l closed last gap) (h0 : l.ppos = 0) (ht : l.title.length ≤ 30) (hc : (l.plen, l.llen) ∈ set)
    (hl : l.plen = 0 ∨ 10 ≤ l.plen) :
    ∃ last, Sheets set { l with pagenumber := l.pagenumber + 1, ppos := 2, out := pageHeader l.title l.llen (l.pagenumber + 1) :: l.out }
      closed last 0 := by
  have e := h.idle.2 h0
  subst e
  obtain ⟨top, h1, h2⟩ := pageHeader_titled ht l.llen (l.pagenumber + 1) gap []
  refine ⟨some ⟨l.pagenumber + 1, top, [], gap⟩, ⟨?_, ?_, ?_, ?_, ?_, ?_, ?_, ?_, ?_⟩, by simp, by simpa using h.number, by simpa using h.lines, ?_⟩
  · rw [List.reverse_cons, List.flatten_append, h.list.text, h1]
    simp [print, Page.begun]
  · have := h.list.numbers
    have n := h.number
    simp only [Option.toList_none, List.append_nil] at this n
    simp only [Option.toList_some, List.map_append, List.length_append, List.length_singleton, this]
    rw [List.range'_1_concat, n, Nat.add_comm 1]
    rfl
  · have := h.list.titles
    simp only [Option.toList_none, List.append_nil] at this
    simp only [Option.toList_some, List.mem_append, List.mem_singleton]
    rintro p (hp | rfl)
    · exact this p hp
    · exact h2
  · have := h.list.width
    simp only [Option.toList_none, List.append_nil] at this
    simp only [Option.toList_some, List.mem_append, List.mem_singleton]
    rintro p (hp | rfl)
    · exact this p hp
    · intro t ht; cases ht
  · exact h.list.short
  · exact h.list.long
  · rintro p hp
    cases hp
    rcases hl with hl | hl
    · exact .inl ⟨_, hc, hl⟩
    · exact .inr ⟨_, hc, by show 2 + 0 + 2 < l.plen; omega⟩
  · intro hg
    refine h.list.gaps ?_
    simp only [Option.toList_some, List.mem_append, List.mem_singleton] at hg
    rcases hg with ⟨p, hp | rfl, hg⟩ | hg
    · exact .inl ⟨p, by simp [hp], hg⟩
    · exact .inr hg
    · exact absurd rfl hg
  · exact fun _ => rfl
  · intro p hp
    cases hp
    exact ⟨Nat.le_refl _, .inr rfl⟩

/-- A line is printed on a page. -/
theorem Sheets.line {set : List (Nat × Nat)} {l : Lst} {closed : List Page} {last : Option Page} {gap : Nat}
    (h : Sheets set l closed last gap) (h0 : l.ppos ≠ 0) (hc : (l.plen, l.llen) ∈ set)
    {s : Str} (hs : Remark s ∨ ∃ x ∈ set, s.length ≤ x.2) :
    ∃ closed last gap, Sheets set
      (if l.plen ≤ l.ppos + 1 + 2 ∧ l.plen ≠ 0 then { l with out := c!"\n\n" :: (s ++ ['\n']) :: l.out, ppos := 0, lines := s :: l.lines }
        else { l with out := (s ++ ['\n']) :: l.out, ppos := l.ppos + 1, lines := s :: l.lines }) closed last gap := by
  obtain ⟨p, rfl⟩ : ∃ p, last = some p := by
    cases last with
    | none => exact absurd (h.idle.1 rfl) h0
    | some p => exact ⟨p, rfl⟩
  have hg : gap = 0 := h.list.ends (by simp)
  subst hg
  obtain ⟨c1, c2⟩ := h.count p rfl
  have hw : ∀ t ∈ p.body ++ [s], Remark t ∨ ∃ x ∈ set, t.length ≤ x.2 := by
    simp only [List.mem_append, List.mem_singleton]
    rintro t (ht | rfl)
    · exact h.list.width p (by simp) t ht
    · exact hs
  have ht : Page.Titled { p with body := p.body ++ [s] } := h.list.titles p (by simp)
  have ln : Page.lines { p with body := p.body ++ [s] } = p.lines + 1 := by
    show 2 + (p.body ++ [s]).length + 2 = 2 + p.body.length + 2 + 1
    simp
    omega
  have lp : p.lines = 2 + p.body.length + 2 := rfl
  have gp : (∃ q ∈ closed ++ [{ p with body := p.body ++ [s] }], q.gap ≠ 0) → ∃ x ∈ set, x.1 = 0 := by
    rintro ⟨q, hq, hg⟩
    refine h.list.gaps (.inl ?_)
    simp only [List.mem_append, List.mem_singleton] at hq
    rcases hq with hq | rfl
    · exact ⟨q, by simp [hq], hg⟩
    · exact ⟨p, by simp, hg⟩
  have nm : (closed ++ [{ p with body := p.body ++ [s] }]).map Page.number = List.range' 1 (closed.length + 1) := by
    have := h.list.numbers
    simpa using this
  have tx : l.out.reverse.flatten = print (closed.flatMap Page.whole) ++ print p.begun := by
    rw [h.list.text]; simp [print]
  have tt : ∀ q ∈ closed ++ [{ p with body := p.body ++ [s] }], q.Titled := by
    simp only [List.mem_append, List.mem_singleton]
    rintro q (hq | rfl)
    · exact h.list.titles q (by simp [hq])
    · exact ht
  have wd : ∀ q ∈ closed ++ [{ p with body := p.body ++ [s] }], ∀ t ∈ q.body, Remark t ∨ ∃ x ∈ set, t.length ≤ x.2 := by
    simp only [List.mem_append, List.mem_singleton]
    rintro q (hq | rfl)
    · exact h.list.width q (by simp [hq])
    · exact hw
  have ls : (closed ++ [{ p with body := p.body ++ [s] }] ++ []).flatMap Page.body = (s :: l.lines).reverse := by
    rw [List.reverse_cons, ← h.lines]
    simp
  by_cases hcl : l.plen ≤ l.ppos + 1 + 2 ∧ l.plen ≠ 0
  · rw [if_pos hcl]
    refine ⟨closed ++ [{ p with body := p.body ++ [s] }], none, 0, ⟨?_, ?_, ?_, ?_, ?_, ?_, ?_, ?_, ?_⟩, by simp, ?_, ls, by simp⟩
    · rw [List.reverse_cons, List.reverse_cons, List.flatten_append, List.flatten_append, tx]
      simp [print, Page.begun, Page.whole]
    · simpa using nm
    · simpa using tt
    · simpa using wd
    · simp only [List.mem_append, List.mem_singleton]
      rintro q (hq | rfl)
      · exact h.list.short q hq
      · exact ⟨_, hc, hcl.2, by rw [ln]; omega⟩
    · simp only [List.mem_append, List.mem_singleton]
      rintro q (hq | rfl)
      · exact h.list.long q hq
      · rw [ln]
        rcases h.list.going p rfl with hz | ⟨x, hx, hlt⟩
        · exact .inl hz
        · exact .inr ⟨x, hx, hlt⟩
    · rintro q hq; cases hq
    · rintro (hq | hq)
      · exact gp (by simpa using hq)
      · exact absurd rfl hq
    · exact fun h => absurd rfl h
    · simpa using h.number
  · rw [if_neg hcl]
    refine ⟨closed, some { p with body := p.body ++ [s] }, 0, ⟨?_, ?_, ?_, ?_, ?_, ?_, ?_, ?_, ?_⟩, by simp, ?_, by simpa using ls, ?_⟩
    · rw [List.reverse_cons, List.flatten_append, tx]
      simp [print, Page.begun]
    · simpa using nm
    · simpa using tt
    · simpa using wd
    · exact h.list.short
    · exact h.list.long
    · rintro q hq
      cases hq
      rw [ln]
      by_cases hz : l.plen = 0
      · exact .inl ⟨_, hc, hz⟩
      · rcases c2 with c2 | c2
        · exact .inl c2
        · exact .inr ⟨_, hc, by show p.lines + 1 < l.plen; omega⟩
    · rintro (hq | hq)
      · exact gp (by simpa using hq)
      · exact absurd rfl hq
    · exact fun _ => rfl
    · simpa using h.number
    · rintro q hq
      cases hq
      show l.ppos + 1 ≤ 2 + (p.body ++ [s]).length ∧ (_ ∨ l.ppos + 1 = 2 + (p.body ++ [s]).length)
      rw [List.length_append, List.length_singleton]
      refine ⟨by omega, ?_⟩
      rcases c2 with c2 | c2
      · exact .inl c2
      · exact .inr (by omega)

/-- Three empty lines, without page breaks. -/
theorem Sheets.eject {set : List (Nat × Nat)} {l : Lst} {closed : List Page} {last : Option Page} {gap : Nat}
    (h : Sheets set l closed last gap) (hz : ∃ x ∈ set, x.1 = 0) :
    ∃ last gap, Sheets set { l with out := c!"\n\n\n" :: l.out, lines := if l.ppos = 0 then l.lines else [] :: [] :: [] :: l.lines } closed last gap := by
  cases last with
  | none =>
    refine ⟨none, gap + 3, { h.list with text := ?_, gaps := fun _ => hz, ends := fun h => absurd rfl h }, h.idle, h.number, (by rw [if_pos (h.idle.1 rfl)]; exact h.lines), h.count⟩
    rw [List.reverse_cons, List.flatten_append, h.list.text]
    simp [print, List.replicate_succ']
  | some p =>
    have hg : gap = 0 := h.list.ends (by simp)
    subst hg
    refine ⟨some { p with body := p.body ++ [[], [], []] }, 0,
      { h.list with text := ?_, numbers := ?_, titles := ?_, width := ?_, going := fun _ _ => .inl hz, gaps := fun _ => hz, ends := fun _ => rfl }, by simpa using h.idle, by simpa using h.number, ?_, ?_⟩
    · rw [List.reverse_cons, List.flatten_append, h.list.text]
      simp [print, Page.begun]
    · simpa using h.list.numbers
    · have := h.list.titles
      simp only [Option.toList_some, List.mem_append, List.mem_singleton] at this ⊢
      rintro q (hq | rfl)
      · exact this q (.inl hq)
      · exact this p (.inr rfl)
    · have := h.list.width
      simp only [Option.toList_some, List.mem_append, List.mem_singleton] at this ⊢
      rintro q (hq | rfl)
      · exact this q (.inl hq)
      · intro t ht
        simp only [List.mem_append] at ht
        rcases ht with ht | ht
        · exact this p (.inr rfl) t ht
        · obtain ⟨x, hx, -⟩ := hz
          refine .inr ⟨x, hx, ?_⟩
          have : t = [] := by simpa using ht
          subst this
          exact Nat.zero_le _
    · have hz : l.ppos ≠ 0 := fun e => by cases h.idle.2 e
      rw [if_neg hz]
      have := h.lines
      simp only [List.reverse_cons, ← this]
      simp
    · rintro q hq
      cases hq
      refine ⟨?_, .inl hz⟩
      have := (h.count p rfl).1
      show l.ppos ≤ 2 + (p.body ++ [[], [], []]).length
      rw [List.length_append]
      omega

theorem listing_mono {set set' : List (Nat × Nat)} (hs : ∀ x ∈ set, x ∈ set') {t : Text} {closed : List Page} {last : Option Page} {gap : Nat}
    (h : Listing set t closed last gap) : Listing set' t closed last gap :=
  { h with
    width := fun p hp t ht => (h.width p hp t ht).imp id fun ⟨x, hx, e⟩ => ⟨x, hs x hx, e⟩
    short := fun p hp => let ⟨x, hx, e⟩ := h.short p hp; ⟨x, hs x hx, e⟩
    long := fun p hp => (h.long p hp).imp (fun ⟨x, hx, e⟩ => ⟨x, hs x hx, e⟩) fun ⟨x, hx, e⟩ => ⟨x, hs x hx, e⟩
    going := fun p hp => (h.going p hp).imp (fun ⟨x, hx, e⟩ => ⟨x, hs x hx, e⟩) fun ⟨x, hx, e⟩ => ⟨x, hs x hx, e⟩
    gaps := fun hg => let ⟨x, hx, e⟩ := h.gaps hg; ⟨x, hs x hx, e⟩ }

theorem Laid.shown {set : List (Nat × Nat)} {a : Lst} (h : Laid set a) {s : Str} (hs : s = a.line.reverse ∨ Remark s) :
    Laid set (printed s a) := by
  have cu := h.mem
  obtain ⟨⟨closed, last, gap, sh⟩, cur, lens, title, line, pos⟩ := h
  have hs : Remark s ∨ ∃ x ∈ set, s.length ≤ x.2 := by
    rcases hs with rfl | hs
    · exact .inr (by simpa using line)
    · exact .inl hs
  have key : ∀ l : Lst, l.ppos ≠ 0 → l.plen = a.plen → l.llen = a.llen → l.title = a.title → l.line = a.line → l.lpos = a.lpos →
      (∃ closed last gap, Sheets set l closed last gap) →
      Laid set (if l.plen ≤ l.ppos + 1 + 2 ∧ l.plen ≠ 0 then { l with out := c!"\n\n" :: (s ++ ['\n']) :: l.out, ppos := 0, lines := s :: l.lines }
        else { l with out := (s ++ ['\n']) :: l.out, ppos := l.ppos + 1, lines := s :: l.lines }) := by
    rintro l h0 e1 e2 e4 e5 e6 ⟨c, la, g, sh⟩
    obtain ⟨c', la', g', sh'⟩ := sh.line h0 (by rw [e1, e2]; exact cu) hs
    revert sh'
    split <;> exact fun sh' => ⟨⟨c', la', g', sh'⟩, (by show ∃ r, set = (l.plen, l.llen) :: r; rw [e1, e2]; exact cur), lens,
      (by show l.title.length ≤ 30; rw [e4]; exact title),
      (by show ∃ x ∈ set, l.line.length ≤ _; rw [e5]; exact line), (by show l.line.length ≤ l.lpos; rw [e5, e6]; exact pos)⟩
  by_cases h0 : a.ppos = 0
  · have := key { a with pagenumber := a.pagenumber + 1, ppos := 2, out := pageHeader a.title a.llen (a.pagenumber + 1) :: a.out }
      (by show (2 : Nat) ≠ 0; decide) rfl rfl rfl rfl rfl ?_
    · unfold printed
      rw [if_pos h0]
      exact this
    · obtain ⟨la, sh'⟩ := sh.begin h0 title cu (lens _ cu).1
      exact ⟨closed, la, 0, sh'⟩
  · have := key a h0 rfl rfl rfl rfl rfl ⟨closed, last, gap, sh⟩
    unfold printed
    rw [if_neg h0]
    exact this

theorem printed_pages (s : Str) (l : Lst) : (printed s l).pages = l.pages := by
  unfold printed
  by_cases h : l.ppos = 0
  · rw [if_pos h]; dsimp only; split <;> rfl
  · rw [if_neg h]; dsimp only; split <;> rfl

theorem Laid.step {set : List (Nat × Nat)} {n : Nat} {a b : Lst} (h : Laid set a) (r : LStep n a b) :
    (Laid set b ∧ b.pages = a.pages) ∨ ∃ x, Laid (x :: set) b ∧ b.pages = (n, x) :: a.pages := by
  have cu := h.mem
  cases r with
  | print s hs => exact .inl ⟨h.shown hs, printed_pages _ _⟩
  | clear =>
    obtain ⟨⟨closed, last, gap, sh⟩, cur, lens, title, line, pos⟩ := h
    exact .inl ⟨⟨⟨closed, last, gap, ⟨sh.list, sh.idle, sh.number, sh.lines, sh.count⟩⟩, cur, lens, title, ⟨_, cu, Nat.zero_le _⟩, Nat.zero_le _⟩, rfl⟩
  | put c hp =>
    obtain ⟨⟨closed, last, gap, sh⟩, cur, lens, title, line, pos⟩ := h
    have h39 := (lens _ cu).2.1
    have hp := hp (by show 0 < a.llen; change 39 ≤ a.llen at h39; omega)
    exact .inl ⟨⟨⟨closed, last, gap, ⟨sh.list, sh.idle, sh.number, sh.lines, sh.count⟩⟩, cur, lens, title, ⟨_, cu, (by show a.line.length + 1 ≤ a.llen; omega)⟩,
      Nat.succ_le_succ pos⟩, rfl⟩
  | over =>
    obtain ⟨⟨closed, last, gap, sh⟩, cur, lens, title, line, pos⟩ := h
    exact .inl ⟨⟨⟨closed, last, gap, ⟨sh.list, sh.idle, sh.number, sh.lines, sh.count⟩⟩, cur, lens, title, line, Nat.le_succ_of_le pos⟩, rfl⟩
  | mark =>
    obtain ⟨⟨closed, last, gap, sh⟩, cur, lens, title, line, pos⟩ := h
    exact .inl ⟨⟨⟨closed, last, gap, ⟨sh.list, sh.idle, sh.number, sh.lines, sh.count⟩⟩, cur, lens, title, line, pos⟩, rfl⟩
  | title t f ht =>
    obtain ⟨⟨closed, last, gap, sh⟩, cur, lens, title, line, pos⟩ := h
    exact .inl ⟨⟨⟨closed, last, gap, ⟨sh.list, sh.idle, sh.number, sh.lines, sh.count⟩⟩, cur, lens, ht, line, pos⟩, rfl⟩
  | eject hz =>
    obtain ⟨⟨closed, last, gap, sh⟩, cur, lens, title, line, pos⟩ := h
    obtain ⟨la, g, sh'⟩ := sh.eject ⟨_, cu, hz⟩
    exact .inl ⟨⟨⟨closed, la, g, sh'⟩, cur, lens, title, line, pos⟩, rfl⟩
  | page p w f hp h1 h2 =>
    obtain ⟨⟨closed, last, gap, sh⟩, cur, lens, title, line, pos⟩ := h
    have hsub : ∀ x ∈ set, x ∈ (p, w) :: set := fun x hx => .tail _ hx
    refine .inr ⟨(p, w), ⟨⟨closed, last, gap, ⟨listing_mono hsub sh.list, sh.idle, sh.number, sh.lines, fun q hq => ⟨(sh.count q hq).1, (sh.count q hq).2.imp (fun ⟨x, hx, e⟩ => ⟨x, hsub x hx, e⟩) id⟩⟩⟩,
      ⟨set, rfl⟩, ?_, title, ?_, pos⟩, rfl⟩
    · intro x hx
      rcases List.mem_cons.1 hx with rfl | hx
      · exact ⟨hp, h1, h2⟩
      · exact lens x hx
    · obtain ⟨x, hx, e⟩ := line
      exact ⟨x, hsub x hx, e⟩

theorem Laid.star {set : List (Nat × Nat)} {n : Nat} {a b : Lst} (h : Laid set a) (r : LStar n a b) :
    ∃ new : List (Nat × Nat), Laid (new ++ set) b ∧ b.pages = new.map (fun x => (n, x)) ++ a.pages := by
  induction r with
  | refl => exact ⟨[], h, rfl⟩
  | tail _ r ih =>
    obtain ⟨new, h1, h2⟩ := ih
    rcases h1.step r with ⟨h3, h4⟩ | ⟨x, h3, h4⟩
    · exact ⟨new, h3, by rw [h4, h2]⟩
    · exact ⟨x :: new, h3, by rw [h4, h2]; rfl⟩

theorem laid_init (env : Env) (src : Str) : Laid [(66, 76)] (initSt env src).lst := by
  refine ⟨⟨[], none, 0, ⟨rfl, rfl, by simp, by simp, by simp, by simp, by simp, by simp, fun h => absurd rfl h⟩, by simp [initSt], rfl, rfl, by simp⟩, ?_, ?_, ?_, ?_, ?_⟩
  · exact ⟨[], rfl⟩
  · intro x hx
    have : x = (66, 76) := by simpa using hx
    subst this
    decide
  · exact Nat.zero_le _
  · exact ⟨_, .head _, Nat.zero_le _⟩
  · exact Nat.zero_le _

/-- What matters in the end. -/
structure Settled (set : List (Nat × Nat)) (l : Lst) : Prop where
  sheets : ∃ closed last gap, Sheets set l closed last gap
  mem : (l.plen, l.llen) ∈ set
  lens : ∀ x ∈ set, (x.1 = 0 ∨ 10 ≤ x.1) ∧ 39 ≤ x.2 ∧ x.2 ≤ 1000

theorem Laid.settled {set : List (Nat × Nat)} {l : Lst} (h : Laid set l) : Settled set l := ⟨h.sheets, h.mem, h.lens⟩

/-- While nothing has been printed the settings may be those of the moment. -/
theorem Laid.blank {set : List (Nat × Nat)} {l : Lst} (h : Laid set l) (ho : l.out = []) :
    Settled [(l.plen, l.llen)] l ∧ (Thin l → Laid [(l.plen, l.llen)] l) := by
  have cu := h.mem
  obtain ⟨⟨closed, last, gap, sh⟩, cur, lens, title, line, pos⟩ := h
  have hn : closed = [] ∧ last = none := by
    have h1 := sh.list.text
    rw [ho] at h1
    simp only [List.reverse_nil, List.flatten_nil, print_append] at h1
    have h1 := h1.symm
    rw [List.append_eq_nil_iff, List.append_eq_nil_iff] at h1
    obtain ⟨⟨h1, h2⟩, -⟩ := h1
    constructor
    · cases closed with
      | nil => rfl
      | cons p r => simp [print, Page.whole, Page.begun] at h1
    · cases last with
      | none => rfl
      | some p => simp [print, Page.begun] at h2
  obtain ⟨rfl, rfl⟩ := hn
  have shs : ∃ closed last gap, Sheets [(l.plen, l.llen)] l closed last gap :=
    ⟨[], none, 0, ⟨by rw [ho]; rfl, rfl, by simp, by simp, by simp, by simp, by simp, by simp, fun h => absurd rfl h⟩, sh.idle, sh.number, sh.lines, by simp⟩
  have len : ∀ x ∈ [(l.plen, l.llen)], (x.1 = 0 ∨ 10 ≤ x.1) ∧ 39 ≤ x.2 ∧ x.2 ≤ 1000 := by
    intro x hx
    cases List.mem_singleton.1 hx
    exact lens _ cu
  refine ⟨⟨shs, .head _, len⟩, fun th => ⟨shs, ⟨[], rfl⟩, len, title, ⟨_, .head _, ?_⟩, pos⟩⟩
  have h21 : l.lpos ≤ 21 := th.1
  have := th.2.2
  show l.line.length ≤ l.llen
  omega

/-! ### Runs -/

/-- The settings of pages and lines in force in the second pass, latest first, given those made (with the number of the pass):
    those made in that pass, and the last one made before, or 66 lines of 76 characters. -/
def inForce : List (Nat × Nat × Nat) → List (Nat × Nat)
  | [] => [(66, 76)]
  | (n, x) :: r => if n = 2 then x :: inForce r else [x]

theorem inForce_append (new : List (Nat × Nat)) (r : List (Nat × Nat × Nat)) :
    inForce (new.map (fun x => (2, x)) ++ r) = new ++ inForce r := by
  induction new with
  | nil => rfl
  | cons x new ih => simp [inForce, ih]

theorem Laid.second {a b : Lst} (h : Laid (inForce a.pages) a) (r : LStar 2 a b) : Laid (inForce b.pages) b := by
  obtain ⟨new, h1, h2⟩ := h.star r
  rw [h2, inForce_append]
  exact h1

/-- In the first pass. -/
structure Early (s : St) : Prop where
  laid : Laid (s.lst.pages.map Prod.snd ++ [(66, 76)]) s.lst
  early : ∀ x ∈ s.lst.pages, x.1 ≠ 2

theorem Early.star {s s' : St} (h : Early s) (hp : s.passnumber ≤ 1) (r : LStar s.passnumber s.lst s'.lst) : Early s' := by
  obtain ⟨new, h1, h2⟩ := h.laid.star r
  refine ⟨?_, ?_⟩
  · rw [h2, List.map_append, List.map_map, List.append_assoc]
    have : (Prod.snd ∘ fun x : Nat × Nat => (s.passnumber, x)) = id := rfl
    rw [this, List.map_id]
    exact h1
  · rw [h2]
    intro x hx
    rw [List.mem_append, List.mem_map] at hx
    rcases hx with ⟨y, -, rfl⟩ | hx
    · show s.passnumber ≠ 2
      omega
    · exact h.early x hx

theorem Early.now {s : St} (h : Early s) (ho : s.lst.out = []) :
    Settled (inForce s.lst.pages) s.lst ∧ (Thin s.lst → Laid (inForce s.lst.pages) s.lst) := by
  have h1 := h.laid.blank ho
  have h2 := h.laid.cur
  have h3 := h.early
  revert h1 h2 h3
  cases s.lst.pages with
  | nil =>
    rintro h1 ⟨r, h2⟩ -
    simp only [List.map_nil, List.nil_append, List.cons.injEq] at h2
    rw [← h2.1] at h1
    exact h1
  | cons x r =>
    rintro h1 ⟨r', h2⟩ h3
    simp only [List.map_cons, List.cons_append, List.cons.injEq] at h2
    have := h3 x (.head _)
    obtain ⟨n, x⟩ := x
    change n ≠ 2 at this
    rw [← h2.1] at h1
    rw [inForce, if_neg this]
    exact h1

theorem full_of {α β : Type} {w : Stop} {s : St} (h : Full (.stop w s : Res α)) : Full (.stop w s : Res β) := by
  revert h
  cases w with
  | ub u => cases u <;> exact id
  | _ => exact id

theorem assemble_laid (fuel : Nat) (o : Opts) (s0 : St) (h0 : Early s0) (hp : s0.passnumber = 0) (i0 : Inv s0) (t0 : Thin s0.lst) :
    Settled (inForce (assemble fuel o s0).state.lst.pages) (assemble fuel o s0).state.lst ∧ Full (assemble fuel o s0) ∧
    ∀ u s1, assemble fuel o s0 = .ok u s1 → s1.passnumber = 2 ∧ Laid (inForce s1.lst.pages) s1.lst := by
  have hA := (inferInstance : Lay (initLabelList .pseudos pseudos)).run s0
  have tA := (inferInstance : Slim (initLabelList .pseudos pseudos)).run s0 t0
  have e1 := h0.star (s' := (initLabelList .pseudos pseudos s0).state) (by omega) hA.1
  have iA := Rel.inv (m := initLabelList .pseudos pseudos) inferInstance i0
  unfold assemble
  rw [bind_run]
  revert hA e1 iA tA
  cases hc : initLabelList .pseudos pseudos s0 with
  | err s =>
    intro hA _ e1 iA
    exact ⟨(e1.now (iA.2 (by rw [hA.2.1]; omega)).2.2.2.2).1, trivial, by simp⟩
  | stop w s =>
    intro hA _ e1 iA
    exact ⟨(e1.now (iA.2 (by rw [hA.2.1]; omega)).2.2.2.2).1, full_of hA.2.2, by simp⟩
  | ok _ sA =>
    intro hA tA e1 iA
    have iB := (pass1_inv (fuel := fuel) i0 hp hc).2
    have hB := (inferInstance : Lay (passLoop fuel fuel true)).run (passStart 1 sA)
    have e2 : Early (pass fuel 1 sA).state := by
      unfold pass
      rw [bind_run, passInit_run]
      exact Early.star (s := passStart 1 sA) ⟨e1.1, e1.2⟩ (Nat.le_refl 1) hB.1
    have hB : (pass fuel 1 sA).state.passnumber = 1 ∧ Full (pass fuel 1 sA) := by
      unfold pass
      rw [bind_run, passInit_run]
      exact ⟨hB.2.1, hB.2.2⟩
    have tB : Slims (pass fuel 1 sA) := by
      unfold pass
      rw [bind_run, passInit_run]
      exact (inferInstance : Slim (passLoop fuel fuel true)).run (passStart 1 sA) tA
    have n1 := e2.now (iB.2 (by rw [hB.1]; omega)).2.2.2.2
    dsimp only
    rw [bind_run]
    revert hB n1 tB
    cases hd : pass fuel 1 sA with
    | err s => intro hB _ n1; exact ⟨n1.1, trivial, by simp⟩
    | stop w s => intro hB _ n1; exact ⟨n1.1, full_of hB.2, by simp⟩
    | ok _ sB =>
      intro hB tB n1
      have n1 : Laid _ sB.lst := n1.2 tB
      dsimp only
      have hu : ∀ k : Unit → M Unit, (modFlags (pass2Flags o) >>= fun _ => undeflabels >>= k) sB = k () (betweenPasses o sB) := fun k => rfl
      rw [hu, bind_run]
      have hC := (inferInstance : Lay (passLoop fuel fuel true)).run (passStart 2 (betweenPasses o sB))
      have hC' : Lays (passStart 2 (betweenPasses o sB)) (pass fuel 2 (betweenPasses o sB)) := by
        unfold pass
        rw [bind_run, passInit_run]
        exact hC
      have n2 := Laid.second (a := (passStart 2 (betweenPasses o sB)).lst) n1 hC'.1
      revert hC' n2
      cases pass fuel 2 (betweenPasses o sB) with
      | err s => intro hC n2; exact ⟨n2.settled, trivial, by simp⟩
      | stop w s => intro hC n2; exact ⟨n2.settled, full_of hC.2.2, by simp⟩
      | ok _ sC =>
        intro hC n2
        dsimp only
        simp only [modS_bind_run, modFlags, modS_run]
        have h1 : (if sC.code.file.isSome = true then { sC with code := sC.code.close sC.flags.codeHex } else sC).lst = sC.lst := by split <;> rfl
        have h2 : (if sC.code.file.isSome = true then { sC with code := sC.code.close sC.flags.codeHex } else sC).passnumber = sC.passnumber := by split <;> rfl
        have h3 : Laid (inForce (if sC.code.file.isSome = true then { sC with code := sC.code.close sC.flags.codeHex } else sC).lst.pages)
            (if sC.code.file.isSome = true then { sC with code := sC.code.close sC.flags.codeHex } else sC).lst := by
          rw [h1]
          exact n2
        refine ⟨h3.settled, trivial, ?_⟩
        intro u s1 e
        cases e
        exact ⟨h2.trans hC.2.1, h3⟩

/-- The state in which `crasm()` ends: after the passes, the summary and the symbol table, or where it stops. -/
def lastState (fuel : Nat) (o : Opts) (s0 : St) : St :=
  match assemble fuel o s0 with
  | .ok _ s1 =>
    match result s1 with
    | .ok _ s2 => if o.xref || (s1.errnumber = 0 && o.list) then (xref s2).state else s2
    | r => r.state
  | r => r.state

/-- Lengths of lines of 1000 characters. -/
def Wide (set : List (Nat × Nat)) : Prop := ∃ x ∈ set, x.2 = 1000

theorem Settled.wide {α : Type} {set : List (Nat × Nat)} {s : St} (h : Settled set s.lst) (f : Full (.stop (.ub .lineBuffer) s : Res α)) : Wide set := by
  have h1 := (h.lens _ h.mem).2
  have h2 := f.1 (by omega)
  have h3 := f.2
  exact ⟨_, h.mem, by show s.lst.llen = 1000; dsimp only at h1; omega⟩

theorem laid_last (fuel : Nat) (o : Opts) (env : Env) (src : Str) :
    Settled (inForce (lastState fuel o (initSt env src)).lst.pages) (lastState fuel o (initSt env src)).lst ∧
    (finish fuel o (initSt env src) = .ub .lineBuffer → Wide (inForce (lastState fuel o (initSt env src)).lst.pages)) := by
  have h1 := assemble_laid fuel o (initSt env src) ⟨laid_init env src, fun x hx => nomatch hx⟩ rfl (inv_initSt env src) ⟨Nat.zero_le _, rfl, (by show 39 ≤ 76; omega)⟩
  unfold lastState finish
  generalize initSt env src = s0 at h1 ⊢
  revert h1
  cases assemble fuel o s0 with
  | err s => exact fun h => ⟨h.1, fun e => nomatch e⟩
  | stop w s =>
    refine fun h => ⟨h.1, fun e => ?_⟩
    cases w <;> cases e
    exact h.1.wide h.2.1
  | ok _ s1 =>
    intro h1
    obtain ⟨p1, h1⟩ := h1.2.2 _ _ rfl
    have hr := (inferInstance : Lay result).run s1
    rw [Lays, p1] at hr
    have h2 := Laid.second h1 hr.1
    dsimp only
    revert h2 hr
    cases result s1 with
    | err s => exact fun _ h => ⟨h.settled, fun e => nomatch e⟩
    | stop w s =>
      refine fun hr h => ⟨h.settled, fun e => ?_⟩
      cases w <;> cases e
      exact h.settled.wide hr.2.2
    | ok _ s2 =>
      intro hr h2
      have p2 : s2.passnumber = 2 := hr.2.1
      dsimp only
      split
      · have hx := (inferInstance : Lay xref).run s2
        rw [Lays, p2] at hx
        have h3 := Laid.second h2 hx.1
        revert h3 hx
        cases xref s2 with
        | err s => exact fun _ h => ⟨h.settled, fun e => nomatch e⟩
        | stop w s =>
          refine fun hr h => ⟨h.settled, fun e => ?_⟩
          cases w <;> cases e
          exact h.settled.wide hr.2.2
        | ok _ s3 => exact fun _ h => ⟨h.settled, fun e => nomatch e⟩
      · exact ⟨h2.settled, fun e => nomatch e⟩

/-- What is on standard output at the end. -/
theorem finish_stdout {fuel : Nat} {o : Opts} {s0 : St} {code : Nat} {out : Str} {file : CodeFile} (h : finish fuel o s0 = .exit code out file) :
    (code = 0 ∧ out = stdoutOf (lastState fuel o s0)) ∨ (code = 10 ∧ ∃ m, out = stdoutOf (lastState fuel o s0) ++ fatalText m) := by
  unfold finish at h
  unfold lastState
  revert h
  cases assemble fuel o s0 with
  | err s => intro h; cases h
  | stop w s => cases w <;> (intro h; cases h); exact .inr ⟨rfl, _, rfl⟩
  | ok _ s1 =>
    dsimp only
    cases result s1 with
    | err s => intro h; cases h
    | stop w s => cases w <;> (intro h; cases h); exact .inr ⟨rfl, _, rfl⟩
    | ok _ s2 =>
      dsimp only
      split
      · cases xref s2 with
        | err s => intro h; cases h
        | stop w s => cases w <;> (intro h; cases h); exact .inr ⟨rfl, _, rfl⟩
        | ok _ s3 => intro h; cases h; exact .inl ⟨rfl, rfl⟩
      · intro h; cases h; exact .inl ⟨rfl, rfl⟩

/-- The lengths of pages and lines (page length, line length) in force in the second pass of a run, latest first. -/
def settings (fuel : Nat) (o : Opts) (env : Env) (src : Str) : List (Nat × Nat) := inForce (lastState fuel o (initSt env src)).lst.pages

/-- **C49.** Whatever the source and the options: what the program prints is a sequence of pages. -/
theorem C49_pages (fuel : Nat) (o : Opts) (env : Env) (src : Str) :
    ∃ closed last gap, Listing (settings fuel o env src)
      (stdoutOf (lastState fuel o (initSt env src))) closed last gap := by
  obtain ⟨c, l, g, h⟩ := (laid_last fuel o env src).1.sheets
  exact ⟨c, l, g, h.list⟩

/-- The lengths that can be given. -/
theorem C49_settings (fuel : Nat) (o : Opts) (env : Env) (src : Str) :
    ∀ x ∈ settings fuel o env src, (x.1 = 0 ∨ 10 ≤ x.1) ∧ 39 ≤ x.2 ∧ x.2 ≤ 1000 :=
  (laid_last fuel o env src).1.lens

/-- This is all that a run prints, but for the message with which it may stop. -/
theorem C49_stdout {fuel : Nat} {o : Opts} {env : Env} {name src : Str} {code : Nat} {out : Str} {file : CodeFile}
    (hs : env.fs name = some src) (h : crasm fuel env o name = .exit code out file) :
    (code = 0 ∧ out = stdoutOf (lastState fuel o (initSt env src))) ∨
    (code = 10 ∧ ∃ m, out = stdoutOf (lastState fuel o (initSt env src)) ++ fatalText m) := by
  unfold crasm at h
  rw [hs] at h
  exact finish_stdout h

/-- The line buffer overflows only if lines of 1000 characters are asked for. -/
theorem C49_lineBuffer {fuel : Nat} {o : Opts} {env : Env} {name src : Str}
    (hs : env.fs name = some src) (h : crasm fuel env o name = .ub .lineBuffer) : ∃ x ∈ settings fuel o env src, x.2 = 1000 := by
  unfold crasm at h
  rw [hs] at h
  exact (laid_last fuel o env src).2 h

/-- With one page length throughout, all complete pages have that many lines and the last one, if it is not complete, has fewer. -/
theorem C49_exact {set : List (Nat × Nat)} {text : Text} {closed : List Page} {last : Option Page} {gap n : Nat}
    (h : Listing set text closed last gap) (hn : n ≠ 0) (hs : ∀ x ∈ set, x.1 = n) :
    gap = 0 ∧ (∀ p ∈ closed, p.gap = 0 ∧ p.whole.length = n) ∧ ∀ p ∈ last, p.gap = 0 ∧ p.begun.length + 2 < n := by
  have nz : ¬ ∃ x ∈ set, x.1 = 0 := fun ⟨x, hx, e⟩ => hn (by rw [← hs x hx, e])
  have hg : ¬ ((∃ p ∈ closed ++ last.toList, p.gap ≠ 0) ∨ gap ≠ 0) := fun hg => nz (h.gaps hg)
  have g0 : ∀ p ∈ closed ++ last.toList, p.gap = 0 := fun p hp => Classical.byContradiction fun hz => hg (.inl ⟨p, hp, hz⟩)
  have hb : ∀ p : Page, p.gap = 0 → p.begun.length + 2 = p.lines := by
    intro p e
    simp [Page.begun, Page.lines, e]
    omega
  refine ⟨Classical.byContradiction fun hz => hg (.inr hz), fun p hp => ?_, fun p hp => ?_⟩
  · have e := g0 p (by simp [hp])
    refine ⟨e, ?_⟩
    have hw : p.whole.length = p.begun.length + 2 := by simp [Page.whole]
    rw [hw, hb p e]
    obtain ⟨x, hx, -, h1⟩ := h.short p hp
    rcases h.long p hp with h2 | ⟨y, hy, h2⟩
    · exact absurd h2 nz
    · have := hs x hx
      have := hs y hy
      omega
  · have e := g0 p (by simp; exact .inr hp)
    refine ⟨e, ?_⟩
    rw [hb p e]
    rcases h.going p hp with h2 | ⟨y, hy, h2⟩
    · exact absurd h2 nz
    · have := hs y hy
      omega

/-- Without page breaks throughout no page is ever complete: everything is on one page. -/
theorem C49_endless {set : List (Nat × Nat)} {text : Text} {closed : List Page} {last : Option Page} {gap : Nat}
    (h : Listing set text closed last gap) (hs : ∀ x ∈ set, x.1 = 0) : closed = [] := by
  cases closed with
  | nil => rfl
  | cons p r =>
    obtain ⟨x, hx, h1, -⟩ := h.short p (.head _)
    exact absurd (hs x hx) h1

/-! ### Cases -/

/-- 30 source lines. -/
def manyLines : Str := (List.replicate 30 c!" nop\n").flatten

def paged : Env := { fs := fun n => if n = c!"a" then some (c!" cpu 6502\n page 12,60\n* = 4096\n" ++ manyLines) else none }

/-- Pages of 12 lines of 60 characters: each PAGE of the source counts once in each pass. -/
example : settings 200 {} paged (c!" cpu 6502\n page 12,60\n* = 4096\n" ++ manyLines) = [(12, 60), (12, 60)] := by decide +kernel

/-- The listing of that source: 19 pages of 12 lines. -/
example : (match crasm 200 paged {} c!"a" with | .exit _ out _ => out.count '\n' | _ => 0) = 19 * 12 := by decide +kernel

/-- Without PAGE. -/
example : settings 200 {} paged manyLines = [(66, 76)] := by decide +kernel

/-! That lines of 1000 characters do overflow the line buffer is `C48_lineBuffer`. -/

end Crasm
