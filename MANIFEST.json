{
 "claims": [
  {
   "property": "C01",
   "status": "proved",
   "theorems": [
    "Crasm.C01_srecord_roundtrip",
    "Crasm.C01_srecord_type"
   ],
   "note": "One S-record, all addresses and data lengths."
  },
  {
   "property": "C02",
   "status": "proved",
   "theorems": [
    "Crasm.C02_ihex_roundtrip",
    "Crasm.C02_srecord_sequence",
    "Crasm.C02_ext_iff"
   ],
   "note": "Sequences of blocks, including extended address records."
  },
  {
   "property": "C03",
   "status": "proved",
   "theorems": [
    "Crasm.C03_wellformed",
    "Crasm.C03_left_behind"
   ],
   "note": "For every run that ends normally with a code file, and for the file left behind after errors: every line is a valid record with correct checksum."
  },
  {
   "property": "C04",
   "status": "partial",
   "theorems": [
    "Crasm.C04_values_partial",
    "Crasm.C04_stores_partial",
    "Crasm.C04_no_file",
    "Crasm.C04_false_dummy",
    "Crasm.C04_false_passes"
   ],
   "note": "The property is false for the code: two witnesses. Proved: the values in order unconditionally, and the addresses for runs satisfying Clean (excluding exactly the two failure patterns)."
  },
  {
   "property": "C05",
   "status": "proved",
   "theorems": [
    "Crasm.C05_line",
    "Crasm.C05_covers"
   ],
   "note": "Whole lines (asmline), accepted or rejected, for every instruction and data directive entry."
  },
  {
   "property": "C06",
   "status": "proved",
   "theorems": [
    "Crasm.C06_data",
    "Crasm.C06_order"
   ],
   "note": "Stated at the level of the directive's handler as stored in the keyword table: operands are arbitrary texts whose values are given by the expression evaluator in the state in which they are evaluated."
  },
  {
   "property": "C07",
   "status": "proved",
   "theorems": [
    "Crasm.C07_ds",
    "Crasm.C07_ds_fill",
    "Crasm.C07_align"
   ],
   "note": "Handler level; 0 <= n < 2^31 for DS; a negative count is undefined behaviour and is excluded as in the property."
  },
  {
   "property": "C08",
   "status": "proved",
   "theorems": [
    "Crasm.C08_asc",
    "Crasm.C08_reject",
    "Crasm.C08_spelling"
   ],
   "note": "Handler level: exact bytes for every escaped spelling, unknown escapes never accepted, every expressible string has a spelling."
  },
  {
   "property": "C09",
   "status": "partial",
   "theorems": [
    "Crasm.C09_value",
    "Crasm.C09_overflow_partial",
    "Crasm.C09_rejected",
    "Crasm.C09_binary_false"
   ],
   "note": "all forms (decimal, $, 0x, h, q, %, 0b, b) evaluate to the spelled number below 2^32; decimal/octal/hex of 2^32 and more give the overflow error; texts spelling no number are refused. Binary constants from 2^32 to 0x1DFFFFFFF are accepted by the code: negation witness C09_binary_false"
  },
  {
   "property": "C10",
   "status": "proved",
   "theorems": [
    "Crasm.C10_value",
    "Crasm.C10_overflow",
    "Crasm.C10_rejected"
   ],
   "note": "value, overflow and rejection at the level of the expression parser for every quoted text"
  },
  {
   "property": "C11",
   "status": "proved",
   "theorems": [
    "Crasm.C11_value"
   ],
   "note": "Every expression tree over numeric constants and defined absolute labels, every spacing, parentheses left out wherever the ranks of the operators allow it; outcomes: the 64-bit value, signed overflow, shift count out of range, or the 4000-byte work buffer of the pattern matcher exhausted. Division by zero leaves the dividend (as the code does)."
  },
  {
   "property": "C12",
   "status": "proved",
   "theorems": [
    "Crasm.C12_value",
    "Crasm.C12_constants"
   ],
   "note": "All chains of terms (constants, labels, parenthesised expressions) whose absolute values sum to less than 2^63, which C12_constants shows for up to 2^31 constants."
  },
  {
   "property": "C13",
   "status": "partial",
   "theorems": [
    "Crasm.C13_data",
    "Crasm.C13_macro_partial",
    "Crasm.C13_macro_many",
    "Crasm.C13_macro_cut"
   ],
   "note": "Operand lists of any length split exactly, for data directives unconditionally; for macro calls the theorem needs at most 9 arguments of at most 59 characters, because the C code truncates longer ones (C13_macro_cut shows the failure) and rejects more than 9 (C13_macro_many)."
  },
  {
   "property": "C14",
   "status": "proved",
   "theorems": [
    "Crasm.C14_captures"
   ],
   "note": "Soundness of filter for all patterns and subjects."
  },
  {
   "property": "C15",
   "status": "proved",
   "theorems": [
    "Crasm.C15_comment"
   ],
   "note": "Processing of a line with and without a comment leads to the same outcome up to the listing, from every state and for every nesting depth."
  },
  {
   "property": "C16",
   "status": "proved",
   "theorems": [
    "Crasm.C16_case"
   ],
   "note": "Every lookup/definition function of the table gives the same result for names equal up to case."
  },
  {
   "property": "C17",
   "status": "proved",
   "theorems": [
    "Crasm.C17_map"
   ],
   "note": "Histories of definitions and references of any length from any table."
  },
  {
   "property": "C18",
   "status": "proved",
   "theorems": [
    "Crasm.C18_established",
    "Crasm.C18_keyword",
    "Crasm.C18_rejected",
    "Crasm.C18_covers",
    "Crasm.C18_reported",
    "Crasm.C18_kept_line",
    "Crasm.C18_kept"
   ],
   "note": "Fixed = defined, not redefinable, not a macro name. C18_established: the address label of an accepted line is fixed; C18_keyword: keywords entered by a vocabulary are fixed in every state of a run (processor keywords while defined). C18_rejected: a line defining a fixed name as label, by EQU/= or MACRO is never accepted (C18_covers: the directives have no other way); C18_reported: a rejected line has reported an error; C18_kept(_line): nothing in the rest of the pass changes value, kind or fixedness."
  },
  {
   "property": "C19",
   "status": "proved",
   "theorems": [
    "Crasm.C19_names",
    "Crasm.C19_section",
    "Crasm.C19_expansion",
    "Crasm.C19_return",
    "Crasm.C19_line",
    "Crasm.C19_numbers",
    "Crasm.C19_apart"
   ],
   "note": "C19_names: for local names and any two scope numbers the symbol keys agree exactly if scope and name (up to case) agree, and never with a global name, when scope number and name fit in 48 characters. C19_section, C19_expansion, C19_return: CODE, DUMMY and macro calls open the scope numbered one more than all before, and a macro call returns to the scope of its caller; C19_line, C19_numbers: a line ends in the scope it began in or in a new one, numbers in use never exceed the count; C19_apart combines them."
  },
  {
   "property": "C20",
   "status": "proved",
   "theorems": [
    "Crasm.C20_equate",
    "Crasm.C20_directive",
    "Crasm.C20_reference",
    "Crasm.C20_kept_line",
    "Crasm.C20_kept"
   ],
   "note": "C20_equate: an accepted equate line leaves the symbol standing for the result of its operand (value, type, register/bit number, data); C20_reference: evaluating the name in any state where it stands for r gives r (or the 4000 byte work buffer is full, undefined behaviour); C20_kept(_line): it goes on standing for r through any further lines unless a step defines the same name again. Names other than the location counter."
  },
  {
   "property": "C21",
   "status": "proved",
   "theorems": [
    "Crasm.C21_vocabulary",
    "Crasm.C21_branch",
    "Crasm.C21_jr",
    "Crasm.C21_jr_cond"
   ],
   "note": "relative branches of all processors and Z80 JR/DJNZ: in-range iff encoded, offset byte, out-of-range error"
  },
  {
   "property": "C22",
   "status": "partial",
   "theorems": [
    "Crasm.C22_operand_partial",
    "Crasm.C22_bare_partial",
    "Crasm.C22_no_operand",
    "Crasm.C22_vocabulary",
    "Crasm.C22_vocabulary_only",
    "Crasm.C22_false_ror",
    "Crasm.C22_false_bit",
    "Crasm.C22_false_acc",
    "Crasm.C22_false_wide"
   ],
   "note": "Proved at the level of the command handler for every mnemonic of the 6500, 6502 and 65C02, every written form of operand and every value, against the published opcode tables; exceptions, each shown by a concrete program: operand A accepted on LDX, LDY, CPX, CPY, BIT, TSB, TRB; BIT e,X accepted without 65C02; ROR accepted on the 6500; values from 0x10000 on whose low 16 bits are below 0x100 take the zero-page form."
  },
  {
   "property": "C23",
   "status": "partial",
   "theorems": [
    "Crasm.C23_operand_partial",
    "Crasm.C23_bare",
    "Crasm.C23_no_operand",
    "Crasm.C23_vocabulary",
    "Crasm.C23_false_jsr",
    "Crasm.C23_false_wide"
   ],
   "note": "Proved at the level of the command handler for every mnemonic of the 6800 and 6801 (6803), every written form of operand and every value, against the published opcode tables; exceptions, each shown by a concrete program: JSR of the 6801 never takes its direct form; values from 0x10000 on whose low 16 bits are below 0x100 count as one byte."
  },
  {
   "property": "C24",
   "status": "partial",
   "theorems": [
    "Crasm.C24_one_partial",
    "Crasm.C24_two_partial",
    "Crasm.C24_two_missing",
    "Crasm.C24_port",
    "Crasm.C24_bit",
    "Crasm.C24_plain_partial",
    "Crasm.C24_im",
    "Crasm.C24_rst",
    "Crasm.C24_ret",
    "Crasm.C24_jump",
    "Crasm.C24_jump_cond",
    "Crasm.C24_jump_reg",
    "Crasm.C24_ex_de",
    "Crasm.C24_ex_af",
    "Crasm.C24_ex_stack",
    "Crasm.C24_vocabulary",
    "Crasm.C24_false_cpdr",
    "Crasm.C24_false_logic",
    "Crasm.C24_false_arith",
    "Crasm.C24_false_three",
    "Crasm.C24_false_rst",
    "Crasm.C24_false_bit",
    "Crasm.C24_false_minus",
    "Crasm.C21_jr",
    "Crasm.C21_jr_cond"
   ],
   "note": "Every Z80 handler, for all operand texts, against an independent transcription of the published encodings. Not proved because false in the code: CPDR (ED 89), operands other than 8-bit ones after the logical operations and A, (AND BC etc.), RST vectors >= 65536 and bit numbers beyond 32 bits (C24_rst and C24_bit say exactly which bits count), (IX-e) with further + or -; witnesses C24_false_*. JR and DJNZ: C21_jr, C21_jr_cond, C21_branch."
  },
  {
   "property": "C25",
   "status": "partial",
   "theorems": [
    "Crasm.C25_reference",
    "Crasm.C25_6502_partial",
    "Crasm.C25_6800",
    "Crasm.C25_kept",
    "Crasm.C25_passes_6502_partial",
    "Crasm.C25_passes_6800",
    "Crasm.C25_false_register"
   ],
   "note": "Forward mark of expressions; sizes on both families; the mark lasts through both passes; so both passes make the same number of bytes. Excluded: operand naming a symbol that is a register (C25_false_register shows a real phase error); and, for both passes, the location counter itself as the symbol."
  },
  {
   "property": "C26",
   "status": "proved",
   "theorems": [
    "Crasm.C26_line",
    "Crasm.C26_met",
    "Crasm.C26_false",
    "Crasm.C26_true",
    "Crasm.C26_untouched",
    "Crasm.sane_reach",
    "Crasm.C26_reports"
   ],
   "note": "Skipped text: no byte, no change of symbols, location counter, flags that matter, scope or source, for every line and state met in a pass (C26_line, both accepted and rejected lines; sane_reach gives the hypotheses). C26_false/C26_true: an IF on active text skips the unselected branch up to the ELSE/ENDC belonging to it (Nested: inner IF..ENDC and macro definitions as wholes), whenever the skipped text reports no error. Skipped text can still report errors (C26_reports, e.g. unknown mnemonics); then effects are still nil but nesting may be miscounted."
  },
  {
   "property": "C27",
   "status": "partial",
   "theorems": [
    "Crasm.C27_order",
    "Crasm.C27_compare_partial",
    "Crasm.C27_single_partial",
    "Crasm.C27_branch",
    "Crasm.C27_false"
   ],
   "note": "False as stated: a register operand leaves its modifier behind in calcresult and a later IF 0 is taken (C27_false, a whole program). Proved: < and > for all histories (C27_order); all relations and single expressions when no modifier is left over in calcresult or in the labels named (C27_compare_partial, C27_single_partial); IF handles its first branch as active exactly when the test is true, and the part after ELSE exactly when it is false (C27_branch). Operands: expressions (C11) or sums (C12) in which shifts are in parentheses. The pattern matcher's buffer may overflow (explicit outcome)."
  },
  {
   "property": "C28",
   "status": "partial",
   "theorems": [
    "Crasm.C28_text",
    "Crasm.C28_line",
    "Crasm.C28_call_partial",
    "Crasm.C28_cut"
   ],
   "note": "Expansion of a line and reading it inside an expansion proved for all lines, arguments and states (result of at most 240 characters). At the call, arguments and operand are exactly as written only if they have at most 59 characters: longer ones are cut by the assembler (C28_cut)."
  },
  {
   "property": "C29",
   "status": "partial",
   "theorems": [
    "Crasm.C29_opens",
    "Crasm.C29_partial",
    "Crasm.C29_last",
    "Crasm.run_reads"
   ],
   "note": "Whole runs: exact except that the end of a macro expansion leaves files included in it, and that a file included by an unterminated last line is not read in that pass (C29_last, a defect)."
  },
  {
   "property": "C30",
   "status": "proved",
   "theorems": [
    "Crasm.C30_lines",
    "Crasm.C30_long",
    "Crasm.run_reads",
    "Crasm.C30_assembled"
   ],
   "note": "Whole runs: in each pass the lines processed from the main file are exactly those of the text, followed only by empty lines (one is read past the end after an error there). Precondition: lines of at most 248 plain characters, in include files too; C30_long shows longer ones are broken up."
  },
  {
   "property": "C31",
   "status": "proved",
   "theorems": [
    "Crasm.C31_levels_bounded",
    "Crasm.C31_macro_too_deep",
    "Crasm.C31_include_too_deep"
   ],
   "note": "Whole runs; the last two say what happens at the limit."
  },
  {
   "property": "C32",
   "status": "proved",
   "theorems": [
    "Crasm.C32",
    "Crasm.C32_hang",
    "Crasm.C32_operator",
    "Crasm.C32_false",
    "Crasm.C32_page"
   ],
   "note": "For every file system, options and file name there is one outcome that every sufficiently large amount of fuel gives, and it is not lack of fuel: an exit, undefined behaviour (a distinct outcome), or the endless loop of operator.c:344. C32_hang: that loop is reached only in a pass and only after a line with a minus sign was read. C32_operator: the only operator that does not end is the subtraction of a single register from a single register of no higher number. C32_false: such a run exists. C32_page: the page-end loop of output.c:143 ends."
  },
  {
   "property": "C33",
   "status": "proved",
   "theorems": [
    "Crasm.C33_failed_assembly",
    "Crasm.C33_no_output_name"
   ],
   "note": "Runs that complete, any program and options; the error count is tied to the calls of error() in pass 2 through the history log."
  },
  {
   "property": "C34",
   "status": "proved",
   "theorems": [
    "Crasm.C34_error_count",
    "Crasm.C34_shown_in_pass2",
    "Crasm.C34_message_printed",
    "Crasm.C34_count_printed",
    "Crasm.C34_pass1_silent"
   ],
   "note": "Count after a completed run, its printed line, messages shown exactly in pass 2 (also in runs that stop early), each shown message printed, pass 1 prints nothing."
  },
  {
   "property": "C35",
   "status": "proved",
   "theorems": [
    "Crasm.C35_listing_options",
    "Crasm.C35_same_history"
   ],
   "note": "Any two option sets with the same output name, any fuel; both runs exit with status 0."
  },
  {
   "property": "C36",
   "status": "proved",
   "theorems": [
    "Crasm.C36_sections",
    "Crasm.C36_initially",
    "Crasm.C36_line",
    "Crasm.C36_run"
   ],
   "note": "Line level (code block, length and file unchanged, counter advances) and run level (code length and file contents are the bytes generated with CODE in force)."
  },
  {
   "property": "C37",
   "status": "proved",
   "theorems": [
    "Crasm.C37_covers",
    "Crasm.C37_rejected",
    "Crasm.C37_label",
    "Crasm.C37_nothing",
    "Crasm.C37_directives",
    "Crasm.C37_ds",
    "Crasm.C37_asc"
   ],
   "note": "Rejection of every generating line and every address label without origin; nothing is generated and the code file is not touched."
  },
  {
   "property": "C38",
   "status": "proved",
   "theorems": [
    "Crasm.C38_sorted_complete",
    "Crasm.C38_once",
    "Crasm.C38_printed_from_tree",
    "Crasm.C38_each",
    "Crasm.C38_when"
   ],
   "note": "The table printed is the symbol table at the end of pass 2, in order, each entry once; it is printed with -x, or if there are no errors and -l is not given."
  },
  {
   "property": "C39",
   "status": "partial",
   "theorems": [
    "Crasm.C39_accepts",
    "Crasm.C39_refuses_partial",
    "Crasm.C39_documented",
    "Crasm.C39_false"
   ],
   "note": "All argument vectors: exactly which are accepted, with what meaning, and that the rest print the usage and exit 10 without touching a file. Not as stated for a misplaced -o, which is passed over in silence (C39_false)."
  },
  {
   "property": "C40",
   "status": "partial",
   "theorems": [
    "Crasm.C40.C40_same_labels_partial",
    "Crasm.C40.C40_labels_agree_partial",
    "Crasm.C40.C40_throughout_partial",
    "Crasm.C40.C40_hard_choices_partial",
    "Crasm.C40.C40_false",
    "Crasm.C40.C40_false_count",
    "Crasm.C40.C40_false_origin",
    "Crasm.C40.C40_false_stale",
    "Crasm.C40.C40_false_register",
    "Crasm.C40.C40_false_bit",
    "Crasm.C40.C40_false_include"
   ],
   "note": "Full claim is false (C40_false and variants, one for each condition of Regular). Proved for every program assembled without error that meets Regular: both passes define the same labels with the same values (same_labels), each label has in pass 2 the value it had at the end of pass 1 (labels_agree), and has it in every state of pass 2 (throughout)."
  },
  {
   "property": "C41",
   "status": "proved",
   "theorems": [
    "Crasm.C41.C41_fields",
    "Crasm.C41.C41_blank",
    "Crasm.C41.C41_line",
    "Crasm.C41.C41_unknown",
    "Crasm.C41.C41_lone",
    "Crasm.C41.C41_length",
    "Crasm.C41.C41_same"
   ],
   "note": "Spec/Line.lean says how a line is written, independently of the model; the model of asmline() (crasm.c:368-580) finds exactly the written fields. Not covered: operands with an unclosed quote or parenthesis, in which a comment is not recognised (the Z80 handler for EX AF,AF' copes with that itself)."
  },
  {
   "property": "C42",
   "status": "proved",
   "theorems": [
    "Crasm.C42.C42_program",
    "Crasm.C42.C42_unique",
    "Crasm.C42.C42_code_file"
   ],
   "note": "All programs of the class in the statement. C42_code_file excludes images whose first byte comes directly behind their last one (the mistake in C04_false_passes)."
  },
  {
   "property": "C43",
   "status": "proved",
   "theorems": [
    "Crasm.C43.C43_program",
    "Crasm.C43.C43_unique",
    "Crasm.C43.C43_code_file"
   ],
   "note": "All programs of the class in the statement. C43_code_file excludes images whose first byte comes directly behind their last one (the mistake in C04_false_passes)."
  },
  {
   "property": "C44",
   "status": "proved",
   "theorems": [
    "Crasm.C44.C44_program",
    "Crasm.C44.C44_unique",
    "Crasm.C44.C44_code_file"
   ],
   "note": "All programs of the class in the statement. C44_code_file excludes images whose first byte comes directly behind their last one (the mistake in C04_false_passes)."
  },
  {
   "property": "C45",
   "status": "proved",
   "theorems": [
    "Crasm.C45.C45_accepted",
    "Crasm.C45.C45_exact"
   ],
   "note": "converse of C42: programs with a meaning are assembled without error, to their image; with C42 an equivalence"
  },
  {
   "property": "C46",
   "status": "proved",
   "theorems": [
    "Crasm.C46.C46_accepted",
    "Crasm.C46.C46_exact"
   ],
   "note": "converse of C43: programs with a meaning are assembled without error, to their image; with C43 an equivalence"
  },
  {
   "property": "C47",
   "status": "proved",
   "theorems": [
    "Crasm.C47.C47_accepted",
    "Crasm.C47.C47_exact"
   ],
   "note": "converse of C44: programs with a meaning are assembled without error, to their image; with C44 an equivalence"
  },
  {
   "property": "C48",
   "status": "proved",
   "theorems": [
    "Crasm.C48_confined",
    "Crasm.C48_vocabulary",
    "Crasm.C48_exact",
    "Crasm.C48_filterBuffer",
    "Crasm.C48_lineBuffer",
    "Crasm.C48_errorBuffer",
    "Crasm.C48_resultBuffer",
    "Crasm.C48_signedOverflow",
    "Crasm.C48_shiftCount",
    "Crasm.C48_ascOverread",
    "Crasm.C48_dsNegative",
    "Crasm.C48_nullMacro",
    "Crasm.C48_openMacro"
   ],
   "note": "All command lines, files, sources and fuel. C48_confined: a run never ends with a call through something that is no function, with the use of a missing label, or with an index outside the opcode table. C48_vocabulary: in every state of a run every name of type mnemonic, including EQU copies, has function, argument and label flag of an entry of the static tables. C48_exact: the causes of undefined behaviour that occur are exactly the others, with a witness program for each (C48_openMacro is a second way to a macro without lines)."
  },
  {
   "property": "C49",
   "status": "proved",
   "theorems": [
    "Crasm.C49_pages",
    "Crasm.C49_settings",
    "Crasm.C49_stdout",
    "Crasm.C49_exact",
    "Crasm.C49_endless",
    "Crasm.C49_lineBuffer"
   ],
   "note": "For all sources and options, over the whole of standard output."
  },
  {
   "property": "C50",
   "status": "proved",
   "theorems": [
    "Crasm.C50.C50_statement",
    "Crasm.C50.C50_dummy",
    "Crasm.C50.C50_equ",
    "Crasm.C50.C50_sets"
   ],
   "note": "Per line, for every state. The bytes shown are those recorded in the log as generated (which C29 and others tie to the code file), C49 ties the recorded lines to the pages printed. Lines of LIST, PAGE, SKIP, INCLUDE, IF, MACRO and macro calls are not covered."
  },
  {
   "property": "C51",
   "status": "proved",
   "theorems": [
    "Crasm.C51.C51_6502",
    "Crasm.C51.C51_6800",
    "Crasm.C51.C51_Z80"
   ],
   "note": "For whole programs of the language of C42-C44 on each processor, from source text to standard output. Lines longer than 76 columns and lines of LIST, PAGE, SKIP, INCLUDE, IF, MACRO are not covered; the summary printed after the passes is not part of the statement."
  },
  {
   "property": "C52",
   "status": "proved",
   "theorems": [
    "Crasm.C52.C52_6502",
    "Crasm.C52.C52_6800",
    "Crasm.C52.C52_Z80"
   ],
   "note": "Whole runs of programs of the language of C42-C44, from the source file to standard output and code file. Runs with another exit status or undefined behaviour are outside (C32, C48)."
  },
  {
   "property": "C53",
   "status": "proved",
   "theorems": [
    "Crasm.C53.C53_6502",
    "Crasm.C53.C53_6800",
    "Crasm.C53.C53_Z80"
   ],
   "note": "Complete text of a successful run with a listing: pages, listing, summary, list of symbols. The code length printed is twice the number of bytes (F5). The last address is the location counter at the end minus one (claimed for programs with an origin that do not end with one). The condition for the mark '?' is not claimed."
  },
  {
   "property": "C54",
   "status": "proved",
   "theorems": [
    "Crasm.C54_value",
    "Crasm.C54_chain"
   ],
   "note": "All texts of the grammar by ranks (Spec.Text); ends in the undefined behaviour of the C code when the value does not exist, or when the matcher's buffer is full. The grammar reads every chain of operands."
  },
  {
   "property": "C55",
   "status": "partial",
   "theorems": [
    "Crasm.C55_value_partial",
    "Crasm.C55_order_false",
    "Crasm.C55_sign_false"
   ],
   "note": "False in general: within a group the first pattern of the table wins (3*5/2 is 6), and a sign after an operator is an error (2*-3). Proved for readings in which the weaker operator of a group comes later."
  },
  {
   "property": "C56",
   "status": "proved",
   "theorems": [
    "Crasm.C56_passes",
    "Crasm.C56_end",
    "Crasm.C56_page",
    "Crasm.C56_exit",
    "Crasm.C56_run",
    "Crasm.C56_narrow"
   ],
   "note": "C56_passes: the two fatal errors of the passes. C56_end: none in the summary, one in the list of symbols, with the bound on the line length. C56_page, C56_exit: not even that one as long as no PAGE is obeyed. C56_run: exit codes and messages of a whole run. C56_narrow: PAGE 0,61 makes an assembly without errors end in a fatal error (finding F13). Not modelled: running out of memory ('no memory')."
  }
 ]
}
