{"id": "C01", "title": "S-record lines decode to the bytes they were built from", "statement": "When a block of 1..16 consecutive code bytes starting at address a is written in S-record format, an independent S-record reader accepts the line (type, length and checksum all consistent) and loads exactly these bytes at addresses a, a+1, ... (address taken modulo 2^32).", "quantifier": "every 64-bit start address and every block of 1 to 16 bytes", "why_tests_cant": "The address width chosen (S1/S2/S3) and the checksum depend on all address and data bits; tests see a handful of blocks.", "anchors": ["src/scode.c: flushscoderaw, scodebyte"]}
{"id": "C02", "title": "Intel HEX lines decode to the bytes they were built from", "statement": "When any sequence of code blocks is written in Intel HEX format, an independent Intel HEX reader (types 00, 01, 04) accepts every line and loads, in order, exactly each block's bytes at the block's 32-bit address, the extended linear address records being emitted whenever the upper half of the address changes.", "quantifier": "every finite sequence of blocks (any 64-bit addresses, 1 to 16 bytes each)", "why_tests_cant": "Correctness of a block depends on the upper address half left by the preceding blocks, i.e. on the whole history.", "anchors": ["src/scode.c: flushscoderaw, rawextended, closescodefile"]}
{"id": "C03", "title": "Code file is a sequence of whole well-formed records", "statement": "If assembly runs to completion and the code file was opened, the file consists of complete newline-terminated records in the syntax of the selected formats, each data record holding between 1 and 16 data bytes with a correct checksum, followed by exactly one end record.", "quantifier": "every source text, include files and option set", "why_tests_cant": "Record boundaries are produced by the interaction of origin changes, byte counts and format switches over the whole program.", "anchors": ["src/scode.c: insert8, setpc, flushscoderaw, closescodefile", "src/crasm.c: crasm"]}
{"id": "C04", "title": "Code file contains every emitted byte at its address", "statement": "Loading the finished code file yields exactly the bytes that pass 2 emitted with code generation on, each at the value the location counter had when it was emitted (modulo 2^32).", "quantifier": "every source program that assembles to completion in a single output format", "why_tests_cant": "The writer keeps its own notion of the current block; agreement with the location counter is a whole-history invariant over ORG, DS, CODE, DUMMY and errors.", "anchors": ["src/scode.c: insert8, setpc, flushscoderaw", "src/crasm.c: asmline", "src/pseudos.c: Xcode, Xdummy"]}
{"id": "C05", "title": "Location counter advances by exactly the bytes generated", "statement": "For every instruction or data line that completes, the location counter after the line equals the counter before plus the number of bytes the line generated (whether or not code output is on); a line that is rejected after generating some bytes also advances by exactly those bytes.", "quantifier": "every line, every machine state in which an origin has been given", "why_tests_cant": "Label addresses downstream depend on it for all lines; tests check specific instructions.", "anchors": ["src/crasm.c: asmline, error", "src/scode.c: insert8"]}
{"id": "C06", "title": "Data directives emit exactly the operand values in the right byte order", "statement": "DB, DW, DDB and DL emit for each operand expression, in order, 1, 2, 2 and 4 bytes being the low-order bytes of its value; DW and DL use the processor's byte order, DDB the opposite one; nothing else is emitted.", "quantifier": "all operand values, both byte orders, operand lists of any length", "why_tests_cant": "Ranges over all 64-bit values and list lengths.", "anchors": ["src/pseudos.c: Xdc, stocke", "src/scode.c: insert16, insert32"]}
{"id": "C07", "title": "DS and ALIGN reserve exactly what they say", "statement": "DS n emits n zero bytes, DS n,f emits n bytes equal to the low byte of f (0 <= n < 2^31), and ALIGN EVEN / ALIGN ODD emit at most one zero byte, after which the location counter has the requested parity.", "quantifier": "all counts, fill values and location counters", "why_tests_cant": "Counts and addresses are unbounded for testing purposes.", "anchors": ["src/pseudos.c: Xds, Xalign"]}
{"id": "C08", "title": "ASC emits the characters of the string", "statement": "For every byte string, writing it as an ASC operand with the documented escapes makes crasm emit exactly those bytes; a string with an unknown escape is rejected.", "quantifier": "all byte strings expressible in a source line, both quote characters", "why_tests_cant": "Infinitely many strings and mixtures of escapes and quotes.", "anchors": ["src/pseudos.c: Xasc"]}
{"id": "C09", "title": "Numeric constants denote their mathematical value or are rejected", "statement": "Every decimal, $hex, 0x hex, octal-Q, and % / 0b binary constant evaluates to the number it spells in its base when that number is below 2^32, and is rejected with an overflow error otherwise; a digit not belonging to the base is rejected.", "quantifier": "all digit strings of any length", "why_tests_cant": "Overflow thresholds sit at single points of an infinite input space.", "anchors": ["src/operator.c: cstdecimal, csthexa, cstoctal, cstbinary", "src/parse.c: oplist, parse2"]}
{"id": "C10", "title": "Character constants pack their characters big-endian", "statement": "A quoted constant evaluates to the big-endian base-256 number formed by its characters (after the escapes \\t \\n \\r \\0 \\\\ \\' \\\"), and is rejected when it does not fit 64 bits, when a character is not printable or when the escape is unknown.", "quantifier": "all character sequences", "why_tests_cant": "Infinitely many sequences, escapes next to quotes interact with the reversal done by the parser.", "anchors": ["src/operator.c: cstascii", "src/filter.c: reverse"]}
{"id": "C11", "title": "Expressions evaluate to their arithmetic value", "statement": "For every expression tree over numeric constants, defined labels and the location counter `*` built with + - * / & | ^ << >> unary - ~ LO( HI(, written with parentheses (which may be left out where the order of binding of C54 allows it) and any amount of blanks around operators, crasm computes the 64-bit two's-complement value of the tree, or stops for one of the stated reasons (arithmetic overflow, bad shift count, work buffer exhausted).", "quantifier": "all expression trees and all spacings", "why_tests_cant": "Structural recursion over unbounded trees; parser works on reversed text by pattern search.", "anchors": ["src/parse.c: parse, parse2, oplist", "src/operator.c: op*"]}
{"id": "C12", "title": "Sums and differences associate to the left", "statement": "A chain t1 ? t2 ? ... ? tn of numeric constants joined by + and - evaluates to the value obtained by adding and subtracting from left to right.", "quantifier": "all chain lengths, all mixtures of + and -, all constants", "why_tests_cant": "The parser splits at the last + before looking for -, so correctness is an algebraic fact about all chains.", "anchors": ["src/parse.c: parse2, oplist"]}
{"id": "C13", "title": "Operand lists split exactly at top-level separators", "statement": "Joining any number of operands by commas (with optional blanks around them), none of which contains a comma outside quotes and parentheses, and splitting the result the way data directives and macro calls do, returns exactly these operands.", "quantifier": "all lists of balanced operands, all spacings", "why_tests_cant": "Quote, escape and nesting state runs over arbitrary strings.", "anchors": ["src/filter.c: filter", "src/pseudos.c: Xdc", "src/macro.c: macrocall"]}
{"id": "C14", "title": "Pattern captures reconstruct the subject", "statement": "Whenever a pattern match succeeds, substituting the captured texts for the wildcards (and some blanks for each blank-skipper) in the pattern gives back the matched text up to letter case and tab/space, so no character of the operand is lost, duplicated or reordered.", "quantifier": "all subject strings and all patterns", "why_tests_cant": "All strings; relied upon by every operand parser.", "anchors": ["src/filter.c: filter"]}
{"id": "C15", "title": "Comments never change what is assembled", "statement": "Appending blanks, a semicolon and any text to a source line whose quotes and parentheses are balanced changes nothing but the listing: same code, same symbols, same location counter, same errors.", "quantifier": "all lines, all comments, all assembler states", "why_tests_cant": "Comments contain arbitrary text including quotes and mnemonics.", "anchors": ["src/crasm.c: asmline", "src/filter.c: filter"]}
{"id": "C16", "title": "Symbol names are case-insensitive", "statement": "Two names that differ only in letter case denote the same symbol in every lookup and definition, in every state of the symbol table.", "quantifier": "all names and all symbol tables", "why_tests_cant": "All spellings of all names.", "anchors": ["src/label.c: searchlabel, findlabel, deflabel"]}
{"id": "C17", "title": "Symbol table is a faithful map", "statement": "After any sequence of definitions and references, looking up a name returns precisely the attributes given by the last successful definition of that name, whatever other names were entered before, in between or after, and in whatever order.", "quantifier": "all histories of symbol operations", "why_tests_cant": "Tree shape depends on the history; tests cannot cover insertion orders.", "anchors": ["src/label.c: searchlabel, makelabel, findlabel, deflabel, init_label_list"]}
{"id": "C18", "title": "Position labels and keywords cannot be redefined", "statement": "Within a pass, once a name has been defined as the address of a line (or is a predefined keyword), any later attempt to define it in the same pass by any means is rejected with an error and leaves its value unchanged.", "quantifier": "all names, all states, all ways of defining a label", "why_tests_cant": "Must hold for every later history.", "anchors": ["src/label.c: deflabel", "src/crasm.c: herelabel", "src/pseudos.c: Xequ", "src/macro.c: Xmacro"]}
{"id": "C19", "title": "Local labels are confined to their scope", "statement": "A name starting with a dot refers to the same symbol exactly when used in the same scope (same macro expansion or same CODE/DUMMY section); uses in different scopes, or global names, never refer to it, for names short enough not to be truncated.", "quantifier": "all scopes and names", "why_tests_cant": "Scope numbers are unbounded and get prefixed to the name textually.", "anchors": ["src/label.c: searchlabel", "src/macro.c: macrocall", "src/pseudos.c: Xcode, Xdummy"]}
{"id": "C20", "title": "Equates bind the value of the expression", "statement": "After a successful `name = expr` a reference to the name evaluates to exactly the value and kind the expression had, until it is redefined.", "quantifier": "all names, expressions and states", "why_tests_cant": "All expressions and later histories.", "anchors": ["src/pseudos.c: Xequ", "src/operator.c: cstlabel"]}
{"id": "C21", "title": "Relative branches reach their target or are rejected", "statement": "For all three processor families a relative branch emits the opcode and a displacement byte d such that (address of branch) + 2 + signed(d) equals the target modulo 2^32, and reports an error exactly when no such byte exists; it always takes 2 bytes.", "quantifier": "all addresses and targets", "why_tests_cant": "2^128 combinations with off-by-one boundaries.", "anchors": ["src/cpu6502.c: branch", "src/cpu6800.c: branch", "src/cpuz80.c: relbranch, jr"]}
{"id": "C22", "title": "6502/65C02 instructions encode per the opcode matrix", "statement": "For every mnemonic and addressing mode, the bytes emitted on a given processor of the family are the opcode of the published matrix followed by the operand (low byte first), zero-page form when available, not a forward reference and the value fits; combinations absent from the matrix are rejected.", "quantifier": "all mnemonics, addressing modes, operand values, processor variants", "why_tests_cant": "Operand values range over all integers and zero-page/absolute selection depends on them.", "anchors": ["src/cpu6502.c: standard, single, m6502, m65c02, offsettable"]}
{"id": "C23", "title": "6800/6801 instructions encode per the opcode matrix", "statement": "For every mnemonic and addressing mode the bytes emitted are the opcode of the published 6800/6801 matrix followed by the operand (high byte first for 16 bits); combinations absent from the matrix are rejected.", "quantifier": "all mnemonics, addressing modes, operand values", "why_tests_cant": "Same as for the 6502.", "anchors": ["src/cpu6800.c: standard, standard2, standard3, single, findmode, codemode, m6800, m6801"]}
{"id": "C24", "title": "Z80 instructions encode per the opcode tables", "statement": "For every mnemonic and combination of register/memory/immediate operands, the bytes emitted are the encoding in the published Z80 instruction set (prefixes, displacement and immediates included) or the line is rejected.", "quantifier": "all mnemonics, operand combinations, displacement and immediate values", "why_tests_cant": "Large product of operand kinds times all values.", "anchors": ["src/cpuz80.c: getreg, docode, ld, arith, logical, bitop, onreg8, stackop, incr, inout, jp, jr, call, ret, rst, im, ex, simple"]}
{"id": "C25", "title": "Forward references keep instruction sizes equal in both passes", "statement": "An operand that refers to a symbol not yet defined makes the 6502 and 6800 instruction use its 16-bit form, and the number of bytes generated by such an instruction does not depend on the symbol's eventual value, so both passes reserve the same space.", "quantifier": "all mnemonics and modes, all values of the forward symbol", "why_tests_cant": "Ranges over every value a symbol may get in pass 2.", "anchors": ["src/cpu6502.c: standard", "src/cpu6800.c: findmode, codemode", "src/label.c: undeflabels"]}
{"id": "C26", "title": "Skipped conditional text has no effect", "statement": "Lines in a branch of IF/ELSE/ENDC that is not selected generate no bytes, define or change no symbols and do not move the location counter, whatever they contain, and nested IF...ENDC are skipped as a whole.", "quantifier": "all texts of skipped branches, all nesting depths, all states", "why_tests_cant": "Arbitrary text and depth.", "anchors": ["src/macro.c: Xif, Xelse, Xendc", "src/crasm.c: asmline"]}
{"id": "C27", "title": "IF evaluates its comparison correctly", "statement": "IF with a comparison of two numeric expressions (= == <> != < > <= >=), or with a single numeric expression (true when non-zero), selects the first branch exactly when the relation holds between the 64-bit signed values.", "quantifier": "all pairs of values, all assembler histories", "why_tests_cant": "The outcome must not depend on what was assembled before.", "anchors": ["src/macro.c: testtrue, compar"]}
{"id": "C28", "title": "Macro parameters are substituted textually", "statement": "Expanding a macro line replaces \\1..\\9 by the corresponding argument (nothing if absent), \\# by the number of arguments, \\* by the whole operand, keeps every other character, and produces exactly that text when it is at most 240 characters long.", "quantifier": "all lines and argument lists", "why_tests_cant": "All strings.", "anchors": ["src/macro.c: linegets, macrocall"]}
{"id": "C29", "title": "Include files are assembled in place", "statement": "After INCLUDE the following lines delivered to the assembler are exactly the lines of the named file in order, then the lines after the INCLUDE in the including text.", "quantifier": "all file contents, all nesting up to the limit", "why_tests_cant": "All file contents and nestings.", "anchors": ["src/macro.c: linegets, Xinclude"]}
{"id": "C30", "title": "Source lines are delivered unchanged", "statement": "For a text whose lines have at most 248 printable characters the assembler processes exactly these lines, in order, in both passes.", "quantifier": "all texts", "why_tests_cant": "All texts, including missing final newline.", "anchors": ["src/macro.c: linegets", "src/crasm.c: pass"]}
{"id": "C31", "title": "Nesting of sources is bounded", "statement": "At no time are more than 10 source levels (main file, includes, macro expansions) open; a program that asks for more is stopped with a fatal error, so recursive macros and recursive includes cannot run away.", "quantifier": "all programs, including self-including and self-calling ones", "why_tests_cant": "Holds at every point of every execution.", "anchors": ["src/macro.c: macrocall, Xinclude, linegets"]}
{"id": "C32", "title": "Assembly terminates", "statement": "For every source text and file system the assembler finishes: it either completes both passes or stops with a fatal error (the known exception, a register range expression, is stated explicitly).", "quantifier": "all inputs", "why_tests_cant": "Non-termination cannot be observed by a finite test.", "anchors": ["src/crasm.c: pass", "src/macro.c: Xif, macrocall, Xmacro", "src/operator.c: opsub"]}
{"id": "C33", "title": "No code file survives a failed assembly", "statement": "If pass 2 reports at least one error and the run completes with an output name given, the code file is removed and the summary says that no code was generated; if it reports none the file is kept and the summary announces success.", "quantifier": "all programs and option sets", "why_tests_cant": "All ways an error may occur, in any order with code generation.", "anchors": ["src/crasm.c: crasm", "src/xref.c: result"]}
{"id": "C34", "title": "Error count equals the errors of pass 2", "statement": "The number printed after ERRORS is the number of errors raised during pass 2, and every one of them has printed a message; errors raised in pass 1 print nothing and are not counted.", "quantifier": "all programs", "why_tests_cant": "Errors are counted in five different handlers reached by long jumps.", "anchors": ["src/crasm.c: error, pass", "src/macro.c: Xif, Xmacro, macrocall", "src/xref.c: result"]}
{"id": "C35", "title": "Listing options do not influence the code", "statement": "The options -l, -s and -x never change the code file: two runs on the same input with the same output name but different listing options, both running to completion, produce the same code file (or both none) and the same number of errors.", "quantifier": "all programs and pairs of option sets", "why_tests_cant": "A two-run (hyper)property over all programs.", "anchors": ["src/output.c", "src/crasm.c: crasm, warning, error"]}
{"id": "C36", "title": "DUMMY sections generate no code but advance addresses", "statement": "While DUMMY is in force, generating bytes advances the location counter as usual but adds nothing to the code file and nothing to the code length.", "quantifier": "all programs, all states", "why_tests_cant": "Over all instructions and histories.", "anchors": ["src/pseudos.c: Xdummy, Xcode", "src/scode.c: insert8"]}
{"id": "C37", "title": "Nothing is generated before an origin is given", "statement": "As long as no origin has been given, every line that would generate a byte or define an address label is rejected with an error; no byte reaches the code file.", "quantifier": "all lines and states without an origin", "why_tests_cant": "Over all generating constructs.", "anchors": ["src/scode.c: insert8", "src/crasm.c: asmline, herelabel"]}
{"id": "C38", "title": "Cross-reference is sorted and complete", "statement": "The symbol list printed at the end visits every symbol of the table exactly once, in strictly increasing name order.", "quantifier": "all programs", "why_tests_cant": "Ordering is an invariant of all insertion histories.", "anchors": ["src/xref.c: xref2", "src/label.c: searchlabel, makelabel"]}
{"id": "C39", "title": "Command line is interpreted as documented", "statement": "Exactly one non-option argument is required and taken as input; -s, -l, -x may be combined; -o takes the next argument as output name; anything else prints the usage and exits with status 10 without touching any file.", "quantifier": "all argument vectors", "why_tests_cant": "All argument lists.", "anchors": ["src/crasm.c: main, syntax"]}
{"id": "C40", "title": "Both passes agree on every label address", "statement": "In a program that assembles without error, every address label has in pass 2 the value it had at the end of pass 1, so code using forward references refers to the right addresses.", "quantifier": "all programs assembling without error", "why_tests_cant": "Requires relating two complete executions for all programs.", "anchors": ["src/crasm.c: crasm, pass", "src/label.c: undeflabels, deflabel", "src/pseudos.c: Xds"]}
{"id": "C41", "title": "A source line is taken apart as it is written", "statement": "A line holding an optional label, a mnemonic and an optional operand field, or a label, an equal sign and a value, with arbitrary blanks and tabs between them and an optional comment, is split into exactly these fields; semicolons, equal signs and blanks inside quotes or parentheses of the operand do not interfere. A lone unknown word in column 0 is a label; any other unknown mnemonic is rejected.", "quantifier": "all source lines of the documented form, all states (vocabularies)", "why_tests_cant": "All texts, all placements of blanks, quotes, parentheses, separators, and all vocabularies including user macros.", "anchors": ["src/crasm.c: asmline, findmnemo, nospacein", "src/filter.c: filter"]}
{"id": "C42", "title": "A whole 6502 program is assembled to the bytes it stands for", "statement": "Take a program of labels, origins, equates, DB/DW/DDB/DL data, ASC texts, DS areas (with or without a fill value), ALIGN and 6500/6502/65C02 instructions, written in any of the ways the assembler reads, in which names are defined, labels once, an origin comes first and origins and the lengths of DS areas do not depend on labels used above their definition. If it is assembled without error, the bytes generated and their addresses are those of a reference semantics that takes the lines one after the other and knows no passes and no symbol table: every label stands for the address at which it is met, forward or backward, `*` in an expression for the address at which its line begins, every expression has its mathematical value, every instruction is encoded as in the published matrix (absolute instead of zero page exactly when a name in the operand depends on a label used above its definition), and every branch leads to its target. The semantics gives at most one image to a program, so the bytes are determined by the program. If the first byte of the image does not come directly behind its last one (the mistake of C04), the code file loads exactly these bytes at these addresses.", "quantifier": "all programs of this class, all three processors, all runs without error", "why_tests_cant": "All programs of any length, all layouts of lines, all forward and backward references; needs the composition of line splitting, expression evaluation, symbol table, both passes, instruction tables and record writer.", "anchors": ["src/crasm.c: crasm, pass, asmline, findmnemo", "src/label.c: deflabel, findlabel", "src/parse.c: parse", "src/pseudos.c: Xequ, Xdc, Xasc, Xds, Xalign, stocke, Xcpu", "src/cpu6502.c: standard, m6502", "src/scode.c: insert8, insert16, insert24, insert32"]}
{"id": "C43", "title": "A whole 6800, 6801 or 6803 program is assembled to the bytes it stands for", "statement": "Take a program of labels, origins, equates, DB/DW/DDB/DL data, ASC texts, DS areas (with or without a fill value), ALIGN and 6800/6801/6803 instructions, written in any of the ways the assembler reads, in which names are defined, labels once, an origin comes first and origins and the lengths of DS areas do not depend on labels used above their definition. If it is assembled without error, the bytes generated and their addresses are those of a reference semantics that takes the lines one after the other and knows no passes and no symbol table: every label stands for the address at which it is met, forward or backward, `*` in an expression for the address at which its line begins, every expression has its mathematical value, every instruction is encoded as in the published tables (extended instead of direct exactly when the value does not fit or a name in the operand depends on a label used above its definition; the long form of JSR always), numbers have their high byte first, and every branch leads to its target. The semantics gives at most one image to a program, so the bytes are determined by the program. If the first byte of the image does not come directly behind its last one (the mistake of C04), the code file loads exactly these bytes at these addresses.", "quantifier": "all programs of this class, all three processors, all runs without error", "why_tests_cant": "All programs of any length, all layouts of lines, all forward and backward references; needs the composition of line splitting, expression evaluation, symbol table, both passes, instruction tables and record writer.", "anchors": ["src/crasm.c: crasm, pass, asmline, findmnemo", "src/label.c: deflabel, findlabel", "src/parse.c: parse", "src/pseudos.c: Xequ, Xdc, Xasc, Xds, Xalign, stocke, Xcpu", "src/cpu6800.c: findmode, codemode, standard, standard2, standard3, m6800, m6801, init6800", "src/scode.c: insert8, insert16, insert24, insert32"]}
{"id": "C44", "title": "A whole Z80 program is assembled to the bytes it stands for", "statement": "Take a program of labels, origins, equates, DB/DW/DDB/DL data, ASC texts, DS areas (with or without a fill value), ALIGN and Z80 instructions (all documented ones but CPDR, whose code is wrong, and EX AF,AF'; the number of the bit in BIT, RES and SET given by an expression without names), written in any of the ways the assembler reads, in which names are defined, labels once, an origin comes first and origins and the lengths of DS areas do not depend on labels used above their definition. If it is assembled without error, the bytes generated and their addresses are those of a reference semantics that takes the lines one after the other and knows no passes and no symbol table: every label stands for the address at which it is met, forward or backward, `*` in an expression for the address at which its line begins, every expression has its mathematical value, every instruction is encoded as in the published tables, numbers have their low byte first, and every relative jump leads to its target. The semantics gives at most one image to a program, so the bytes are determined by the program. If the first byte of the image does not come directly behind its last one (the mistake of C04), the code file loads exactly these bytes at these addresses.", "quantifier": "all programs of this class, all runs without error", "why_tests_cant": "All programs of any length, all layouts of lines and operands, all forward and backward references; needs the composition of line splitting, operand patterns, expression evaluation, symbol table, both passes, instruction tables and record writer.", "anchors": ["src/crasm.c: crasm, pass, asmline, findmnemo", "src/label.c: deflabel, findlabel", "src/parse.c: parse", "src/filter.c: filter", "src/pseudos.c: Xequ, Xdc, Xasc, Xds, Xalign, stocke, Xcpu", "src/cpuz80.c: all instruction handlers, mz80, initz80", "src/scode.c: insert8, insert16, insert24, insert32"]}
{"id": "C45", "title": "A 6500/6502/65C02 program is refused only if it stands for nothing", "statement": "Take a program of the class of C42 (labels, origins, equates, data directives, ASC, DS, ALIGN, instructions) to which the reference semantics of C42 gives an image under some assignment of addresses to its labels. If the run of the assembler comes to its end (it does not overflow a 64-bit expression or a fixed buffer), it reports no error, and the bytes generated and their addresses are that image. Together with C42: for these programs errors are reported if and only if the program stands for nothing. In particular an error in pass 1 (where names defined further down do not have their values yet, so that a displacement may be out of range) never spoils the addresses of labels.", "quantifier": "all programs of this class, all runs that come to an end", "why_tests_cant": "Absence of false errors over all programs of any length; a test shows that one program is accepted. Needs both passes: that no line of a meaningful program is refused in pass 2, and that pass 1, in which lines are evaluated with values that are not yet known, leaves every label with the address it has in pass 2.", "anchors": ["src/crasm.c: crasm, pass, asmline, findmnemo, error", "src/label.c: deflabel, findlabel", "src/parse.c: parse", "src/pseudos.c: Xequ, Xdc, Xasc, Xds, Xalign, stocke, Xcpu", "src/cpu6502.c: standard, single, branch", "src/scode.c: insert8, insert16, insert24, insert32"]}
{"id": "C46", "title": "A 6800/6801/6803 program is refused only if it stands for nothing", "statement": "Take a program of the class of C43 (labels, origins, equates, data directives, ASC, DS, ALIGN, instructions) to which the reference semantics of C43 gives an image under some assignment of addresses to its labels. If the run of the assembler comes to its end (it does not overflow a 64-bit expression or a fixed buffer), it reports no error, and the bytes generated and their addresses are that image. Together with C43: for these programs errors are reported if and only if the program stands for nothing. In particular an error in pass 1 (where names defined further down do not have their values yet, so that a displacement may be out of range) never spoils the addresses of labels.", "quantifier": "all programs of this class, all runs that come to an end", "why_tests_cant": "Absence of false errors over all programs of any length; a test shows that one program is accepted. Needs both passes: that no line of a meaningful program is refused in pass 2, and that pass 1, in which lines are evaluated with values that are not yet known, leaves every label with the address it has in pass 2.", "anchors": ["src/crasm.c: crasm, pass, asmline, findmnemo, error", "src/label.c: deflabel, findlabel", "src/parse.c: parse", "src/pseudos.c: Xequ, Xdc, Xasc, Xds, Xalign, stocke, Xcpu", "src/cpu6800.c: standard, standard2, standard3, codemode, findmode", "src/scode.c: insert8, insert16, insert24, insert32"]}
{"id": "C47", "title": "A Z80 program is refused only if it stands for nothing", "statement": "Take a program of the class of C44 (labels, origins, equates, data directives, ASC, DS, ALIGN, instructions) to which the reference semantics of C44 gives an image under some assignment of addresses to its labels. If the run of the assembler comes to its end (it does not overflow a 64-bit expression or a fixed buffer), it reports no error, and the bytes generated and their addresses are that image. Together with C44: for these programs errors are reported if and only if the program stands for nothing. In particular an error in pass 1 (where names defined further down do not have their values yet, so that a branch, a restart vector or an interrupt mode may be out of range) never spoils the addresses of labels.", "quantifier": "all programs of this class, all runs that come to an end", "why_tests_cant": "Absence of false errors over all programs of any length; a test shows that one program is accepted. Needs both passes: that no line of a meaningful program is refused in pass 2, and that pass 1, in which lines are evaluated with values that are not yet known, leaves every label with the address it has in pass 2.", "anchors": ["src/crasm.c: crasm, pass, asmline, findmnemo, error", "src/label.c: deflabel, findlabel", "src/parse.c: parse", "src/pseudos.c: Xequ, Xdc, Xasc, Xds, Xalign, stocke, Xcpu", "src/scode.c: insert8, insert16, insert24, insert32", "src/cpuz80.c: getreg, docode, relbranch, simple, im, rst, jr, ret, call, jp, ex, inout, bitop, onreg8, logical, stackop, arith, incr, ld"]}
{"id": "C48", "title": "What crasm calls and indexes is always there", "statement": "A statement is executed by a call through a pointer kept in the symbol table, where EQU can store a copy of any entry under a new name, and error() returns by longjmp. Nevertheless, for every command line, every set of files and every source: a run never calls through anything but one of the functions of the static tables with the argument and the need of a label given there, EQU and MACRO never run without their label, and the opcode table of the 6502 is never indexed outside its bounds. Of the other kinds of undefined behaviour (overflow of the buffers of filter.c, output.c, error() and result(), signed overflow, shift counts out of range, an ASC text that is not closed, DS with a negative count, a macro without lines) each does occur in a run on a source of a few lines.", "quantifier": "all command lines, files, sources and lengths of the run; all states of a run", "why_tests_cant": "That a call through a pointer is always valid is a statement about every table entry reachable by any chain of EQU definitions, conditionals, macros and errors; a test exercises some of them. Needs an invariant of the symbol table over all executions together with a check of every entry of the tables.", "anchors": ["src/crasm.c: asmline, findmnemo, error, crasm", "src/pseudos.c: Xequ, Xasc, Xds, Xpage, Xfail, pseudos", "src/macro.c: Xmacro, macrocall, linegets", "src/label.c: initLabelList", "src/cpu6502.c: standard, offsettable, addmodes", "src/xref.c: result", "src/filter.c: filter", "src/output.c: outputcar, setpage", "src/operator.c"]}
{"id": "C49", "title": "The listing is a sequence of numbered pages of the length asked for", "statement": "For every source and all options, what crasm prints on standard output is, up to the message of a fatal error: pages numbered 1, 2, 3, ..., each beginning with a line that shows a title of at most 30 characters and the number, and an empty line, each complete page ending in two empty lines, and at most the last page not complete. The lengths of pages and lines are those in force in the second pass: given by PAGE (0 or at least 10 lines, 39 to 1000 characters), or 66 lines of 76 characters. With one page length other than 0 throughout, every complete page has exactly that many lines, the last one fewer if it is not complete, and nothing stands between pages; with page length 0 throughout there is one page. No line is longer than a line length in force, except messages of errors and warnings. The line buffer overflows only if PAGE asks for lines of 1000 characters.", "quantifier": "all sources, files, options and lengths of the run", "why_tests_cant": "Page breaks depend on a counter that is moved by every printed line, continuation line, SKIP, PAGE, error message and the symbol table; that the counter and the text printed agree after any sequence of them is an invariant of all runs. The reference listings have pages of one length only.", "anchors": ["src/output.c: outputraw, outputEOL, outputEOP, outputcar, position, outputline, outputbyte, setpage, settitle", "src/xref.c: result, xref, printlabel", "src/pseudos.c: Xpage, Xskip, Xtitle", "src/crasm.c: error, warning, crasm"]}
{"id": "C50", "title": "The listing shows each line with the bytes and addresses assembled from it", "statement": "When a line is assembled without error and listed, what the line adds to the listing is exactly the following, apart from warnings. If code is generated: the bytes that go into the code file from this line, in order, in rows that begin with the address of their first byte, as many per row as fit in 19 columns (7 with addresses of four digits, 6 with six, 5 with eight), at most 21, 23 or 24 bytes in all, the rest being replaced by '...' (by nothing with addresses of four digits); then, in the last of these rows or in a row of its own, the number of the line (or the mark of the macro or skipped line) in columns 22 to 26 and the text of the line from column 29 on with tabulators expanded. In a DUMMY part: one row with the address in front if the line defines a label as its address. For EQU: one row with the value given to the label in front. For CPU, CODE and DUMMY: one row.", "quantifier": "all states in which a listed line is assembled without error (the line fits the line length, the line buffer is empty), all lines whose statement is an instruction, EQU, data, or a directive other than LIST, PAGE, SKIP, INCLUDE, IF, MACRO", "why_tests_cant": "The margin is filled while bytes are generated, by functions far from the one that prints the line; the column, the advance of the location counter and the address last shown decide together where rows begin and end. That bytes shown and bytes generated agree concerns every instruction of every processor and every length of data.", "anchors": ["src/output.c: outputbyte, outputaddr, outputline, outputlinnum, position, outputcar, outputraw", "src/scode.c: insert8", "src/crasm.c: asmline, herelabel", "src/pseudos.c: Xequ, Xds, Xdc, Xasc, Xcode, Xcpu"]}
{"id": "C51", "title": "The listing of a program shows every line with its number, the bytes it stands for and their addresses", "statement": "When a program (labels, origins, equates, data directives, instructions of one of the processors) is assembled without error, the listing is not suppressed (no option -l) and every line has room in 76 columns, the standard output of the two passes is a listing in numbered pages of 66 lines of 76 columns whose lines are, apart from warnings, exactly the lines of the source in order: the CPU line with its number, then for every line the rows that show the address and the bytes that the semantics of the program gives to the line, or the value of the origin or equate, followed by the number of the line and its text. The bytes shown line after line make up the image generated. The first pass leaves no trace: nothing is printed by it, and no text waits to be printed.", "quantifier": "all programs of the language of C42 to C44 for each processor, all sources that write them, all options with -l, all fuel values with which the run ends without error", "why_tests_cant": "Margin, address and line buffer are kept in globals over both passes and all lines; whether a row begins with the right address depends on the history of the run. Tests compare a few listings.", "anchors": ["src/crasm.c: pass, asmline, linegets", "src/output.c: outputbyte, outputaddr, outputline, outputlinnum, outputraw", "src/scode.c: insert8", "src/pseudos.c: Xequ, Xdc, Xasc, Xds, Xalign, Xcpu"]}
{"id": "C52", "title": "What a run prints and leaves behind is decided by the program", "statement": "If crasm is called with a file that holds a program of the language of C42 to C44 and comes to its normal end (exit status 0), then what can be observed follows from the semantics of the program. Either the program stands for an image (under some assignment of addresses to its labels): then 'ERRORS: 0' and 'Successful assembly...' are printed; with -o the code file holds the bytes of the image in order, and a loader stores them at their addresses unless the first byte comes directly behind the last one (without bytes there may be no file); without -o no file is touched; and unless -l suppresses the listing, when every line fits, the text printed begins with the listing of C51, in pages of 66 lines. Or the program stands for nothing: then 'No code generated...' is printed and the file named with -o is removed.", "quantifier": "all programs, all sources that write them, all options, all file environments, all fuel values", "why_tests_cant": "It ties the text of the source to the bytes of the code file and to standard output for infinitely many programs, through both passes and all layers of the assembler.", "anchors": ["src/crasm.c: main, crasm, pass, asmline", "src/scode.c: insert8, flushscoderaw, closescode", "src/output.c", "src/xref.c: result, xref"]}
{"id": "C53", "title": "All that is printed for a program: its listing, a summary and the list of its symbols", "statement": "If crasm is called, without -l, with a file that holds a program of the language of C42 to C44 that stands for an image, every line of which fits on a line of the listing, and comes to its normal end, then standard output consists of pages of 66 lines on which there are, in this order and separated by empty lines only: the listing of C51 (with remarks perhaps), the summary of six lines that reports 0 errors, 0 warnings and a successful assembly, and the list of symbols. The list of symbols has precisely one line for each label and each equate of the program and none for anything else (not for mnemonics, registers, directives or the location counter), in strictly increasing order of the names; it shows the address of a label and the last value of an equate in four hexadecimal digits, the type 'Abs', the name, and a mark: '?' for unused symbols, otherwise '^' if the value depends on a label defined below its first use, and a blank if not. The code length in the summary is twice the number of bytes of the image, since it is counted in both passes. The last address in the summary is the location counter at the end minus one, if the program has an origin and its last line is not an origin. (What 'Last address' says otherwise and the condition for '?' are not part of the claim.)", "quantifier": "all programs, all sources that write them, all options without -l, all file environments, all fuel values", "why_tests_cant": "The table depends on the symbol tree after both passes, in which the vocabulary of the processor, directives and symbols are mixed; that exactly the symbols of the program appear, once each and in order, with the values of the semantics, is a statement on all programs.", "anchors": ["src/xref.c: printlabel, xref, result", "src/label.c: findlabel, scanlabels", "src/output.c: position, outputaddr, outputEOL, outputEOP", "src/crasm.c: crasm"]}
{"id": "C54", "title": "Operators without parentheses: a fixed order of binding", "statement": "An operand written without parentheses around its parts is read with a fixed order of binding - `+` weakest, then `-`, `*`, `/`, `|`, `&`, `^`, `<<`, `>>`, then a minus sign at the beginning, `~` before an operand, and LO( ), HI( ) and parentheses tightest; repeated operators of the same kind go from left to right - and its value is that of the expression so read, in 64-bit arithmetic. If that value does not exist (overflow, shift count out of range) the run ends in that undefined behaviour; the pattern matcher may run out of its work buffer. The location counter `*` can be such an operand where it cannot be taken for a product sign: alone, as a term of a sum, as the first factor of a product. Every chain of operands joined by dyadic operators can be read in this way.", "quantifier": "all expression trees, all texts that write them, all blanks, all label values, all states", "why_tests_cant": "The parser matches patterns on the reversed text with nested quantifiers over positions; which split is taken depends on all the operators in the text together, so samples cannot cover the combinations of length n.", "anchors": ["src/parse.c: oplist, parse2", "src/filter.c: filter", "src/operator.c"]}
{"id": "C55", "title": "The precedence of operators is that of the manual", "statement": "Operators bind as in the table of the manual (crasm.1:216-248, 'in order of decreasing precedence'): the sign and `~` before shifts, shifts before `|` `&` `^`, these before `*` `/`, these before `+` `-`; operators of the same group are applied from left to right.", "quantifier": "all expressions without parentheses, all label values, all states", "why_tests_cant": "Which of two operators of a group is applied first is decided by a comparison of pointers into the work buffer of the pattern matcher; tests with one operator per group never see it.", "anchors": ["crasm.1:216-250", "src/parse.c:130-143: parse2"]}
{"id": "C56", "title": "Fatal errors: only for the stated reasons", "statement": "A run that comes to an end has exit code 0, or exit code 10 after the usage text or after FATAL ERROR with one of four messages: the source file cannot be opened, the code file cannot be opened, too many INCLUDEs and MACROs are open, line length must be greater. The internal failure of asmline() is never reported. While the source is read, and in the summary, no text and no line length accepted by PAGE leads to the message about the line length: only the list of symbols at the end does, and only if the line length is less than 62 or less than the column in which the last continuation line began. (It then does so even after an assembly without errors: PAGE accepts lengths from 39 on.) If no PAGE is obeyed, the message about the line length does not occur.", "quantifier": "all command lines, files, sources and lengths of the run", "why_tests_cant": "That a call of fatal() is unreachable is a statement about every state of every run: the contents of the line buffer at each statement, every line length set by PAGE, every way a line is continued, and every entry found in the symbol table.", "anchors": ["src/crasm.c: asmline, fatal, crasm, main", "src/output.c: setpage, position, outputcar, outputline", "src/pseudos.c: Xpage", "src/xref.c: printlabel, result", "src/macro.c: macrocall, Xinclude", "src/scode.c: insert8"]}
