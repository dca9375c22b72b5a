# Formal model of crasm: design

## 1. Trusted base

* Lean 4.33.0's kernel. No axioms of our own, no `sorry`/`admit`, no `native_decide`/`bv_decide`.
* Axioms used (checked with `#print axioms` for every theorem named in MANIFEST.json): at most `propext`,
  `Classical.choice` and `Quot.sound`. Of the 244 theorems 146 use all three, 83 `propext` and `Quot.sound`, 13
  `propext` only, 2 none. (Nothing else has ever appeared.)
* The hand transcription of /repo/src into `lean/Verif/Model/*.lean`. Every definition cites file and lines. As a
  check of the transcription the model was executed (outside /verif) on the programs in /repo/test: for all 11 of
  them the output equals the reference output in /repo/test/reference_output byte by byte. crasm itself was never
  built or run.
* The reading of C fixed here: LP64 (int 32, long 64 bits, two's complement), `char` = one byte, "C" locale,
  narrowing conversions are modular, `>>` on negative numbers is arithmetic, `<<` on negative numbers shifts the
  bit pattern (GCC/clang behaviour). Signed overflow, shift counts out of range, reads and writes outside arrays
  are undefined behaviour.

## 2. What is modelled

All of the program: `main` (option parsing), `crasm`, `pass`, `asmline`, errors and warnings (crasm.c); pattern
matching and reversal (filter.c); expression parser and operators (parse.c, operator.c); symbol table (label.c);
pseudo-instructions (pseudos.c, stdvocabulary.c); conditionals, macros, includes and line reading (macro.c); code
file writer (scode.c); listing (output.c, xref.c); the three processors (cpu6800.c, cpu6502.c, cpuz80.c, cpulist.c).

Shape: an executable functional model. The C globals form the record `St`; a C function is a function
`St → Res α` where `Res` is *normal return* (`ok`), *longjmp to the innermost handler* (`err`, from `error()`), or
*stop* (`fatal()`/exit, undefined behaviour, infinite loop). `setjmp` is `catchErr`. Undefined behaviour is a
distinct outcome (`UB`), never assumed away. Mutually recursive line processing takes a fuel argument; "out of fuel"
is a separate stop, and C32 proves that with enough fuel it never happens.

History variable: `St.log` is not in the C program. It is written but never read by the model, and records, latest
first, every byte generated (`.byte pass address value codeOn`), every call of `error` (`.error pass shown`), every
line delivered by `linegets` (`.line pass depth text`, both file lines and expanded macro lines), and every source
opened (`.opened pass depth kind`, include file or macro expansion). Run-level properties (C04, C29, C30, C33, C34,
C36) are stated over it. Mutations M73–M75 (see
§6 and the log for their outcome) aim at a history that drifts away from the state. A second list, `St.notes`, records with each
pass the choices that decide the layout (counts of DS, outcomes of IF, values given to `*`), the definitions of labels at
the start of lines, and two kinds of odd event; it is used only by C40. A third, `Lst.pages`, records
the settings made by PAGE, and `Lst.lines` the lines printed below the page headers; they are used only by C49 and C50.

Not modelled / simplified:

* I/O failures (ferror), progress output on stderr, malloc failure, `strerror`.
* The file system is a fixed function from names to contents; the code file is the only thing written. It is assumed
  not to be one of the source files.
* `static` variables of the listing code live in the state record like all others.
* In-place modification of operand strings (`reverse` inside the parser) is modelled by values: no caller reads an
  operand again after passing it to `parse`.
* Line numbers, page numbers, macro depth and scope numbers are naturals (no wrap at 2^31); `advance` is an integer.
* `va_list`, `setjmp` mechanics: the saved/restored jump buffers are the nesting of `catchErr`.
* `insert24` and other functions that are never called.

## 3. Layout

* `Verif/Model/*` – the model, one file per C file (roughly).
* `Verif/Spec/*` – small independent specifications: record readers, quote/parenthesis balance, byte orders, number
  and expression texts with their values, comparisons, macro substitution, the reading of nested sources, IF/ENDC
  nesting, source lines, the command line, and the published instruction sets of the 6502/65C02, 6800/6801 and Z80.
* `Verif/Proof/*` – lemmas.
* `Verif/Props/Cnn.lean` – the theorems of property Cnn with non-vacuity examples (`example`, mostly whole programs
  run through the model by `decide +kernel`).

Proof frameworks:

* *Steps* (Steps, WalkN, WalkH, WalkS, WalkL, Run): every function of the model is a sequence of primitive steps,
  `NStep ⊂ HStep ⊂ PStep ⊂ Step`; `Walk` is proved once for the whole assembler, so that an invariant of runs only has
  to be checked for each primitive step (`Star.inv`, `Reach.inv`). Used by C03, C04, C05, C18–C20, C25, C31, C33–C38.
* *Two related runs* (RelN, RelA, RelL, Whole): states that differ only in listing matters stay so. Used by C35.
* *Two passes* (Lock, LockE, LockH, LockZ, LockS, LockP, LockL, LockM, LockN, LockO, LockQ, LockR): pass 1 and pass 2 run
  side by side on different symbol tables (`PW`). The judgement `LsAt` presupposes that both passes come to their known
  ends without an error in pass 2; an instruction with a forward reference then has the same length in both. Used by C40.
* *Fuel* (Fuel): more fuel does not change an outcome. *Settling* (Calm, CalmH, Halt, Settle, Ends): a measure on
  the texts still to be read shows that enough fuel exists. Used by C32.
* *Pattern matcher* (FilterL, Words, Modes, OperZ, LineP): which patterns match which texts. `Toward r r'` (Parse) says that
  a computation yields `r'` unless the matcher's 4000-byte work buffer is exhausted (undefined behaviour in C).
* *Expressions* (Parse, ExprP, Digits): the parser, which reads its text backwards, on the texts of the specification.
* *Exact generation* (Gen, Emit, EncZ, Made): which bytes a command generates, and that nothing else changes.
* *Programs* (Tame, Fields, ProgLine, ProgRun, ProgCpu, ProgHalf, ProgEither, ProgFirst, ProgAll, ProgFull, ProgUnique, ProgInst, Prog6502): the lines of a program, one by one, against the reference
  semantics; generic in the processor (`Machine`: what its instructions do; `Chosen`: what its CPU directive does). Used by C42, C43 and C44.
* *More directives* (Spec/Extra, ProgExtra, ProgWhole): a processor's instructions (`Core`, `Takes`, `Definite`) are extended once for all processors by ASC, DS and ALIGN (`Isa.plus`, `Core.plus`, `Takes.plus`, `Definite.plus`). Used by C42–C47.
* *Acceptance* (TextE, Comp, Comp6502, Comp6800, CompZ80, CompFirst, CompSecond): programs that stand for something are not refused (`Complete`). Used by C45, C46 and C47.
* *Undefined behaviour* (Meek): the ways in which each function can stop; mnemonics come from the static tables. Used by C48.
* *Sources* (Source), *skipped text* (Skip, Nest), *code file* (CodeInv), *symbol tree* (Tree, Order, Frame, Stmt, Big).

## 4. Properties

"Handler level" means: the statement is about the function called for the mnemonic in any state, with the operand
text as `asmline` hands it over. "Line level" means `asmline` as a whole, "run level" means whole runs of the
assembler.

| Id | Status | What is proved, and how it relates to the statement |
|----|--------|------|
| C01 | proved | round trip of one S-record, all addresses and data |
| C02 | proved | round trip of any sequence of blocks, with the reader's upper address half as state |
| C03 | proved | run level: every line of the finished file is a valid record; also for the file left behind after errors |
| C04 | partial | false for the code (F1, F2). Run level: values in order always; values and addresses for runs that satisfy `Clean`, which excludes exactly the two failure patterns (an origin repeated after a DUMMY section that advanced, and a first origin of pass 2 equal to the final counter of pass 1) |
| C05 | proved | line level, accepted and rejected lines, every instruction and data directive |
| C06 | proved | handler level (DB, DW, DDB, DL and their kin); operands are arbitrary texts whose values are given by the evaluator in the state in which they are evaluated |
| C07 | proved | handler level (DS with and without fill, ALIGN); operands as in C06; a negative count is undefined behaviour and excluded |
| C08 | proved | handler level (ASC); every byte string, written with the documented escapes, is emitted; unknown escapes are rejected |
| C09 | partial | all bases; binary constants from 2^32 to 0x1DFFFFFFF are accepted by the code (F6) |
| C10 | proved | parser level, every quoted text |
| C11 | proved | all expression trees, all spacings, parentheses left out wherever the ranks of the operators allow it (`Spec.Text`; this is also how expressions are written in the programs of C42 to C53); division by zero leaves the dividend, as in the code; overflow and bad shift counts are undefined behaviour and stated as such |
| C12 | proved | chains whose absolute values sum to less than 2^63 (so that no signed overflow arises); shown for up to 2^31 constants |
| C13 | partial | data directives: unconditional. Macro calls: at most 9 arguments of at most 59 characters (F11, truncation) |
| C14 | proved | all patterns and subjects |
| C15 | proved | line level, from every state, every nesting depth: same outcome up to the listing |
| C16 | proved | every table function; histories of any length |
| C17 | proved | every table function; histories of any length |
| C18 | proved | line and run level. `Fixed`: defined, not redefinable, not a macro name; `C18_covers` shows that label fields, EQU/= and MACRO are the only ways of defining |
| C19 | proved | names of which scope number and text fit in 48 characters; scopes as opened by CODE, DUMMY and macro calls |
| C20 | proved | line level for the definition, any state for the reference, any number of steps in between |
| C21 | proved | handler level, all three families and Z80 JR/DJNZ |
| C22 | partial | handler level, all mnemonics × all written operand forms × all values against the published matrix; deviations F9 as witnesses |
| C23 | partial | same; deviations F9 |
| C24 | partial | same; deviations F8 |
| C25 | partial | handler level for the sizes, run level for the forward mark lasting into pass 2; symbols that turn out to be registers excluded (F3); the symbol is not the location counter `*`, which is put back at the beginning of each pass |
| C26 | proved | line level and IF level; errors in skipped text are still reported (C26_reports), which the statement does not exclude |
| C27 | partial | stale modifier (F4): `<`, `>` always; the others if no modifier is left over; `C27_branch` says which part is assembled, with or without ELSE |
| C28 | partial | expansion exact; at the call, arguments over 59 characters are cut (F11) |
| C29 | partial | run level; EXITM/ENDM inside an included file, and INCLUDE on an unterminated last line (F11) |
| C30 | proved | run level, and each recorded line is the one handed to the assembler (`C30_assembled`); empty lines may follow (one is read past the end after an error there) |
| C31 | proved | run level |
| C32 | proved | run level: one outcome for all sufficient fuel, never lack of fuel; the endless loop needs a minus sign between registers |
| C33 | proved | run level: the fate of the code file and what the summary says |
| C34 | proved | run level: the number printed is the number of errors of pass 2, each with its message |
| C35 | proved | run level, two runs |
| C36 | proved | line and run level |
| C37 | proved | line level, in every state without origin |
| C38 | proved | run level: the list is that of the table in order (`C38_each`), and it is printed exactly with -x, or without errors and without -l (`C38_when`) |
| C39 | partial | all argument vectors; misplaced `-o` is ignored in silence (F12) |
| C40 | partial | run level, two passes: false in general (F3, F4, F11; one witness for each condition); proved for programs that meet `Regular`: both passes define the same labels with the same values, and a label has its value in every state of pass 2. `Regular` asks nothing of programs in which counts, conditions and origins use earlier symbols only, symbols used early are numbers, and no INCLUDE ends the source |
| C41 | proved | line level: the fields found on every line written in one of the ways of `Spec/Line.lean` (words, closed quotes and parentheses, blanks, comments) are the written ones; blank lines hold no statement; unknown mnemonics are rejected; lone words in the first column are labels; the length bound of the hypotheses holds of every line linegets() delivers |
| C42 | proved | run level, the composition of C40, C41, C11, C20, C22, C05, C06 and C04: `Spec/Program.lean` is a reference semantics of programs (no passes, no symbol table). Every source written as such a program (`Source`, `Tame`, `Proper`) that assembles without error stands for exactly the bytes and addresses generated in pass 2 (`C42_program`), with the syntactic notion `late p` of a label used above its definition; the semantics allows only one image and one address per label (`C42_unique`). That these programs are `Regular` in the sense of C40 is proved, not assumed: `Proof/ProgHalf`, `ProgEither`, `ProgFirst` follow the marks of symbols through both passes. `Proper` asks that names are defined, labels once, an origin comes before labels and code, and origins and lengths of DS areas do not depend on forward labels (otherwise C40 fails, see `C40_false_origin`). `C42_code_file` says that the records of the code file load exactly the image, for every image whose first byte does not come directly behind its last one (`C04_false_passes` is a program of the class for which it does, and whose code file is wrong); that the run is `Clean` in the sense of C04 follows from this (`program_clean`). `*` in an expression is the location counter at the beginning of the line, once there is an origin (`Base.here`, `Marked`: in both passes it is never marked as a forward reference there, and it may be used in an origin or a DS length). Outside of the class: macros, IF, INCLUDE, DUMMY and local labels |
| C43 | proved | as C42, with the same reference semantics and the same generic proof, for the 6800, 6801 and 6803 (`Spec/Prog6800.lean`, `Proof/Prog6800.lean`). JSR is the one of the 6800 also on the 6801: the short form is not known to the assembler (`C23_false_jsr`), and the long one is a valid encoding of the instruction. |
| C44 | proved | as C42 and C43, for the Z80 (`Spec/ProgZ80.lean`, `Proof/ProgZ80.lean`, `Proof/ProgZ80I.lean`, `Proof/ProgZ80M.lean`). Built on the theorems of C24: for each class of instructions, an accepted one generates the published encoding of its operands. Outside the class: CPDR (wrong code, `C24_false_cpdr`), `EX AF,AF'` (its operand field has a quote that is not closed, so it is no statement in the sense of `Spec.Line`; its handler is covered by `C24_ex_af`), and bit numbers that depend on names (a value out of range is refused already in pass 1, where a name defined further down does not have its value yet). |
| C45 | proved | the converse of C42 (`C45_accepted`) and, with it, an equivalence (`C45_exact`). `Complete` (Proof/Comp.lean) says of a processor that an instruction that has an encoding is not refused, and that an error in pass 1, where a name used before its definition has another value, comes only after the right number of bytes; instance in `Comp6502`. CompFirst follows the program through pass 1 (every label gets the address that the semantics assigns to it), CompSecond through pass 2. Excluded by the hypothesis that the run comes to an end: signed overflow and the 4000-byte work buffer (undefined behaviour in C), running out of fuel. |
| C46 | proved | as C45, the converse of C43 (`Comp6800`). An indexed operand out of range is an error in pass 1 already, but after its two bytes: the example `near` is accepted although pass 1 finds this error. |
| C47 | proved | as C45, the converse of C44 (`CompZ80`). Every operand that is written as one of the forms of the specification is read as this form, and registers stand for themselves because the symbol table keeps their values. IM and RST report a wrong number after their bytes: the example `near` is accepted although pass 1 finds this error. |
| C48 | proved | undefined behaviour is an outcome of a run (`Run.ub`) with its cause. `C48_confined`: three causes never occur (call through something that is no function, NULL label, index outside `offsettable`). `C48_vocabulary` is the invariant behind it (`SpecialOk` of Steps.lean: whatever name stands for a mnemonic has function, argument and label flag of an entry of a table; EQU copies all three); the entries of the tables themselves are checked one by one (`tables_apt`). `C48_exact` is the converse: every other cause occurs, shown by a program of a few lines each. The proof goes through every function (`Meek`, Proof/Meek.lean) |
| C49 | proved | `Spec/Listing.lean`: pages and listings, with no reference to counters. The history variable `Lst.pages` records the settings of PAGE with the pass. Every function of the model moves the listing state by the steps of `LStep` (class `Lay`, one instance per function, `Proof/Lay.lean`); the pages on paper and the counters `ppos`, `pagenumber`, `lpos` agree along such steps (`Laid`). That the first pass prints nothing (`Inv` of RelN) and leaves no more than the margin in the line buffer (class `Slim`, `Proof/Slim.lean`) allows the settings to be those of the second pass. `C49_pages`, `C49_settings`, `C49_stdout` (this is all of standard output), `C49_exact`, `C49_endless` (one page length), `C49_lineBuffer`. |
| C50 | proved | `Spec/Listing.lean`: `row`, `rows`, `bytes`, `tag`, `sourceLine`, `statement`, `echo` describe rows of the listing by address, bytes and text, with no reference to columns or counters of the model. `Lst.lines` records the lines printed. `Lined` (`Proof/Show.lean`) relates the line buffer and the lines printed since the beginning of the line to the bytes generated so far; class `Lists` (one instance per function that generates code, all three processors) says that it is kept while bytes are appended to the log; `Marg` is the same for lines that show no bytes. `Proof/ShowL.lean`: `outputline` prints one `sourceLine`. Finding: with addresses of four digits (all processors supported) bytes after the 21st are left out without the mark `...` that output.c:316 intends, since the row is already full. |
| C51 | proved | composes C42–C44 (semantics of programs), C49 (pages) and C50 (rows). `Spec/ProgList.lean`: `shown` gives the rows of a line from the semantics (`Step`) alone, `Printed` runs the semantics over the lines of the source and collects them, `Shows` says that a text is a listing in pages of 66 × 76 with these lines and perhaps remarks. `C42.Trace` keeps the state before and after each line of pass 2; `row_ok` (Proof/ProgList.lean) applies C50 to it. Class `Tidy` (Proof/Tidy.lean): no function used by such lines changes the page settings, and after an error in pass 1 or a printed line the line buffer is empty; hence pass 2 begins with an empty buffer and 76 columns (`first_clear`). Lines that do not fit in 76 columns, PAGE/LIST/TITLE lines, macros, conditionals and included files are not covered. |
| C52 | proved | end to end, stated on the observables of a run (`Run.exit` with standard output and fate of the code file) alone: `Outcome` has one case for programs that stand for an image and one for programs that stand for nothing. Composed from C45–C47 (`exact`), C42–C44 (image, code file), C33/C34 (messages), C04 (`C04_values_partial`, `C04_no_file`), C49 and C51; new is that `nocode` is decided by -o (`nocode_end`), that result() and xref() only add lines to the listing (`lines_star`) and leave the page settings alone (`Tidy`). Runs that do not end with exit status 0 (undefined behaviour, hang, fatal errors: C32, C48) are not covered. |
| C53 | proved | the rest of standard output. `Spec/Symbols.lean`: `Table` says which rows the list of symbols has, from the labels and equates of the program, its addresses and the last state of its semantics alone; `Report` gives the parts of the text. `Proof/Table.lean` follows `result` and `xref` column by column (`put`, `Held`: one record of 61 columns per line of 76); `Charted` (Proof/ProgFull.lean) says what the symbol tree holds after both passes: the labels, the equates, `*`, and the words of the vocabulary, which stay not redefinable. With C38 (order) this gives exactly one row per symbol. `hiddenLabel` removes `*` and the vocabulary (whole tables by `decide +kernel`). "Code length" is twice the number of bytes (finding F5): both passes generate the same number of them (`First.tip` in CompFirst, `program_length`), and `codelen` counts all (C36). "Last address" is the one before the location counter at the end (`Final`), where the program has an origin and does not end with one: after any other line the address of the next byte is that of the location counter (`Did.here`, `Trace.at_end`). Left open: "Last address" of the other programs, and the condition for the mark `?` |
| C54 | proved | `Spec.Text` (`Spec/Expr.lean`) is a grammar of texts by ranks, in which parentheses may be left out; `Spec/Rank.lean` has the chains of operands and the order of the manual. `Proof/Rank.lean` shows where `parse2` splits a text (`parse2_split`: at the rightmost of its weakest operators; a minus sign with nothing before it is passed over) and follows the grammar by induction; `C54_chain`: the grammar reads every chain. The location counter `*` can stand alone, as a term of a sum or as the first factor of a product (`2**` is an error in the code, shown by an example). Register lists (`\`) and bit references (`{}`) are not in it |
| C55 | partial | `Spec.Manual` is the reading of the manual. Between groups it holds; within a group it is false where the weaker operator comes first (F14, witness `3*5/2`), and for signs after an operator (witness `2*-3`); the partial theorem has precisely the first condition and no signs. For `+` and `-` the order does not change the value (C12) |
| C56 | proved | `Proof/Slim.lean` carries through every function that between statements the line buffer holds at most the left margin and that a pass stops with no other fatal error than the two of `C56_passes`; inside `outputline` the buffer is no longer than a line and continuation lines start before its end (`Snug`), so that `position` is never asked for a column outside the line. `C56_end` does the same for summary and list of symbols. `C56_page` and `C56_exit`: while no PAGE has been obeyed the line length is 76 and continuation lines begin before column 76 (`Proof/Lay.lean`, rule `mark`), so that this message does not occur. That statements looked up are mnemonics or macros (`splitLine_kind`) excludes the internal failure. Left out: `no memory`; `XX: makelabel` and `internal macrocall error` have no counterpart in the model (the first follows a failed search for the same name in the same function; the second follows a dereference of the same pointer, which the model counts as undefined behaviour, C48) |

## 5. Findings: where the code deviates

Each is stated as a theorem with a concrete witness where a property is concerned (named in brackets).

* F1. CODE → DUMMY → CODE without a change of origin places the following bytes at wrong addresses, because
  `rawstart` is not updated while DUMMY advances [C04_false_dummy].
* F2. If the first origin of pass 2 equals the final counter of pass 1 while `rawstart` differs, `setpc` does
  nothing and the block starts at the stale address [C04_false_passes].
* F3. There is no phase check: `ds forwardlabel` and `asl foo … foo equ a` make the passes disagree in silence
  [C25_false_register, C40_false, C40_false_origin,
  C40_false_register, C40_false_bit]. Errors of pass 1 are never counted.
* F4. `calcresult.modifier` is never cleared: after Z80 `push af`, `if 0` is taken [C27_false]. It even survives from the end
  of pass 1 into pass 2, so that the passes disagree on what is skipped [C40_false_stale].
* F5. `codelen` is not reset between the passes, so that the length printed is twice that of the code [C53]; warnings
  are never counted; the exit status is 0 in spite of errors.
* F6. The overflow bound of binary constants is 0xefffffff instead of 0x7fffffff [C09_binary_false].
* F7. A register range `b-c` loops for ever [C32_false]; `(a\b)-c` evaluates `1 << 32`.
* F8. Z80: CPDR is encoded ED 89 [C24_false_cpdr]; AND/OR/… and ADD A, accept 16-bit registers and memory operands
  [C24_false_logic, C24_false_arith]; a third operand is accepted [C24_false_three]; RST and bit numbers are only
  checked modulo 2^16 and 2^32 [C24_false_rst, C24_false_bit]; `(ix-5+3)` means offset −8 [C24_false_minus].
* F9. 6502: ROR accepted on the 6500 [C22_false_ror], BIT e,X on the plain 6502 [C22_false_bit], operand A on LDX
  etc. [C22_false_acc], values ≥ 0x10000 with small low half count as zero page [C22_false_wide]; forward references
  in (e), (e,X), (e),Y and `stx e,y` are rejected. 6801: JSR never takes its direct form [C23_false_jsr];
  [C23_false_wide].
* F10. Undefined behaviour reachable from source text: unterminated ASC, FAIL messages of 65 characters and more,
  operands that overflow the matcher's buffer, `page 0,1000`, negative DS, a macro without ENDM inside IF, a huge
  program counter in `result`.
* F11. Truncation and reading: macro arguments over 59 characters [C28_cut, C13_macro_cut]; local labels near 48
  characters collide; lines over 248 characters are broken up [C30_long]; INCLUDE on an unterminated last line is read
  first thing in pass 2 instead [C29_last, C40_false_include]; ENDC on an unterminated last line is "Unexpected End of File".
* F12. `-o` without a following word, not last in its word, or given twice is ignored [C39_false].
* F13. `page x,n` with n ≤ 61 makes the symbol list stop with a fatal error after the code was written [C32_page, C56_narrow]: PAGE accepts
  lengths from 39 on (output.c:85), but an entry takes LABLEN + 13 columns and needs one more (xref.c:34, output.c:240). The bound
  would be right for names of 25 characters.
* F14. Operators of one group of the manual are not applied from left to right: parse.c:130-143 means to take the one that
  comes last in the text (`cb < c2`), but compares pointers to captures made one after the other in the work buffer, so the
  first pattern of the group wins. `3*5/2` is 6, not 7 [C55_order_false]; likewise `a<<b>>c` is `a<<(b>>c)` and `a|b&c` is `a|(b&c)`.
  A minus sign after an operator is an error: `2*-3` [C55_sign_false], although the manual ranks it above `*`.
* Others: `2*7/2` is 6; `2--1` is rejected; x/0 is x; relative + absolute is rejected; `0b12h` is hexadecimal; IF
  `1<<2 < 5` splits at the first `<`; after DUMMY bytes the code file is created even if it stays empty of data.

## 6. Mutation testing

`seeded/LOG.jsonl` records edits of the model that imitate realistic bugs, made in a scratch copy, with the theorems
that stopped checking. What a verdict in the log means:

* A theorem is listed as failed if it, or a lemma it depends on, is rejected after the edit. That shows that its proof no
  longer goes through. It does not by itself show that its statement has become false; no counterexample in the edited
  model is computed unless the note of the entry says so.
* Lemmas of the proof framework (the modules `Steps`, `Walk*`, `Rel*`, `Lock*`, `Made`, `Calm*`, `Run`, `Ends`, `Frame`,
  `Nest`, `Halt`, `Fuel`, `Settle`, `Skip`, `Whole`) describe the code closely and break under nearly every edit. Their
  failure is not counted: they are replaced by stubs and the build goes on. If nothing else fails the verdict is
  "inconclusive", which includes the case that a stub hides the edit from the theorems above it.
* An edit after which the model itself does not compile is "invalid" and says nothing about the theorems.
* Theorems whose names contain `_false` (counterexamples) do not count as catching an edit.

The first runs accepted framework failures and non-compiling edits as caught; the entries concerned were run again under
the rules above.
