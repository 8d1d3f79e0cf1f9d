{"id": "C01", "title": "8-bit ADD/ADC results and all eight flags", "statement": "ADD A,s and ADC A,s leave in A the sum of A, s and (for ADC) the carry flag modulo 256, and set S,Z,Y,H,X,P/V,N,C to: sign and zero of the result, bits 5 and 3 of the result, carry out of bit 3, signed overflow, 0, carry out of bit 7.", "quantifier": "every accumulator value, operand value and prior flag byte", "why_tests_cant": "16.7 million input combinations; the exerciser binaries sample them through checksums.", "anchors": ["src/z80/ops.rs:add", "src/z80/ops.rs:adc", "src/cpu/flags.rs"]}
{"id": "C02", "title": "8-bit SUB/SBC/CP/NEG results and all eight flags", "statement": "SUB, SBC, CP and NEG compute the modular difference with S,Z,H,P/V,N=1,C equal to the sign, zero, half-borrow, signed overflow and borrow of the exact integer difference; X and Y come from the result, except in CP where they come from the operand; CP leaves A unchanged.", "quantifier": "every accumulator value, operand value and prior flag byte", "why_tests_cant": "16.7 million input combinations per operation.", "anchors": ["src/z80/ops.rs:sub", "src/z80/ops.rs:sbc", "src/z80/ops.rs:cp", "src/z80/ops.rs:neg", "src/cpu/flags.rs"]}
{"id": "C03", "title": "8-bit INC/DEC results and flags", "statement": "INC and DEC of an 8-bit operand add or subtract one modulo 256, never touch the carry flag, set P/V exactly when the signed value overflows (0x7F or 0x80), and set H exactly on a nibble carry or borrow.", "quantifier": "every operand byte and prior flag byte", "why_tests_cant": "Carry preservation is a statement about every prior flag byte, not about chosen ones.", "anchors": ["src/z80/ops.rs:inc", "src/z80/ops.rs:dec"]}
{"id": "C04", "title": "16-bit ADD/ADC/SBC results and flags", "statement": "ADD HL,ss changes HL to the sum modulo 65536 with H the carry out of bit 11, C the carry out of bit 15, N=0, X/Y from the high byte and S,Z,P/V preserved; ADC HL,ss and SBC HL,ss also include the carry and set S,Z,P/V from the exact 16-bit signed result.", "quantifier": "every pair of 16-bit operands and prior flag byte", "why_tests_cant": "2^33 combinations of operands and carry.", "anchors": ["src/z80/ops.rs:add16", "src/z80/ops.rs:adc16", "src/z80/ops.rs:sbc16"]}
{"id": "C05", "title": "Logic operations, CPL, SCF and CCF", "statement": "AND, OR and XOR produce the bitwise result with P/V = even parity, C=N=0 and H=1 only for AND; CPL complements A, sets H and N and keeps S,Z,P/V,C; SCF sets C, CCF complements C moving the old carry to H; both keep S,Z,P/V and clear N.", "quantifier": "every accumulator, operand and prior flag byte", "why_tests_cant": "Exhaustive in three bytes; parity and preservation claims are universal.", "anchors": ["src/z80/ops.rs:and", "src/z80/ops.rs:or", "src/z80/ops.rs:xor", "src/z80/ops.rs:cpl", "src/z80/ops.rs:scf", "src/z80/ops.rs:ccf", "src/cpu/flags.rs:parity"]}
{"id": "C06", "title": "DAA corrects packed BCD arithmetic and never hits its unreachable arm", "statement": "For packed BCD operands, ADD or ADC followed by DAA yields the BCD sum with C set exactly on decimal overflow, and SUB or SBC followed by DAA yields the BCD difference modulo 100 with C set exactly on decimal borrow; on every A and flag byte DAA equals the documented correction and never reaches the code path declared unreachable.", "quantifier": "every pair of valid BCD bytes and carry; every A and flag byte for totality", "why_tests_cant": "unreachable arms are compiled to undefined behaviour; a test that does not hit them says nothing about the inputs it did not run.", "anchors": ["src/z80/ops.rs:daa"]}
{"id": "C07", "title": "Rotates and shifts", "statement": "Each rotate/shift moves every bit to its documented position, puts the expelled bit in C, and the pairs RLC/RRC and RL/RR undo one another; eight RLC (nine RL) are the identity; the CB forms set S,Z,P from the result while RLCA/RRCA/RLA/RRA keep S,Z,P/V.", "quantifier": "every operand byte and prior flag byte", "why_tests_cant": "The inverse laws quantify over all values and both carry states.", "anchors": ["src/z80/ops.rs:rlc", "src/z80/ops.rs:rrc", "src/z80/ops.rs:rl", "src/z80/ops.rs:rr", "src/z80/ops.rs:sla", "src/z80/ops.rs:sll", "src/z80/ops.rs:sra", "src/z80/ops.rs:srl", "src/z80/ops.rs:rlca"]}
{"id": "C08", "title": "BIT, SET, RES, RLD, RRD", "statement": "SET b and RES b change exactly bit b; BIT b reports in Z (and P/V) the complement of bit b, sets H, clears N, keeps C and sets S only for bit 7; RLD and RRD permute the three low nibbles of A and the memory byte, keep the high nibble of A, and undo one another.", "quantifier": "every operand byte, bit number, accumulator and flag byte", "why_tests_cant": "Frame conditions (all other bits unchanged) are universal.", "anchors": ["src/z80/ops.rs:bit", "src/z80/ops.rs:set", "src/z80/ops.rs:res", "src/z80/ops.rs:rld", "src/z80/ops.rs:rrd"]}
{"id": "C09", "title": "Register access laws", "statement": "After setting any 8-bit or 16-bit register, index register or index half through the public API, reading it back gives the value set, the 8-bit and 16-bit views agree (high byte first), and every other register read through the API is unchanged.", "quantifier": "every CPU state, register, prefix and value", "why_tests_cant": "Non-interference is a claim about all registers and all states.", "anchors": ["src/z80.rs:get_reg", "src/z80.rs:set_reg", "src/z80.rs:get_reg16", "src/z80.rs:set_reg16", "src/z80.rs:set_index16", "src/cpu/registers.rs:RegisterPair"]}
{"id": "C10", "title": "Exchange operations are involutions that move exactly the documented pairs", "statement": "Applying EX AF,AF', EXX or EX DE,HL twice, as an API call or as an executed instruction, restores every register; once, it exchanges exactly the documented pairs and nothing else.", "quantifier": "every CPU state", "why_tests_cant": "Statement about all states; the local copy of the flags during execution is an easy place to lose an update.", "anchors": ["src/z80.rs:ex_af_af", "src/z80.rs:exx", "src/z80/internal.rs:ex_af_af_with_flags", "src/z80/internal.rs:ex_de_hl"]}
{"id": "C11", "title": "Memory refresh register counting", "statement": "Bits 0-6 of R advance modulo 128 by one for each opcode fetch M1 cycle and each interrupt acknowledge; bit 7 of R changes only through LD R,A or set_r; add_r(n) is n increments; normalize_r changes nothing observable and is idempotent.", "quantifier": "every CPU state, instruction and any number of increments", "why_tests_cant": "The lazy representation splits R over two fields; agreement must hold for all interleavings.", "anchors": ["src/z80.rs:get_r", "src/z80.rs:set_r", "src/z80.rs:add_r", "src/z80.rs:inc_r", "src/z80.rs:normalize_r", "src/z80.rs:get_ir"]}
{"id": "C12", "title": "Reset reaches one fixed state", "statement": "reset() from any state gives the same state as new(): PC=0, IR=0, interrupts disabled, mode 0, not halted, no pending prefix or EI, SP=AF=0xFFFF and the other registers as documented.", "quantifier": "every prior CPU state", "why_tests_cant": "A field forgotten in reset shows only from some histories.", "anchors": ["src/z80.rs:reset", "src/z80.rs:new"]}
{"id": "C13", "title": "Opcode decoding agrees with the Z80 bit-field decoding", "statement": "For every byte following no prefix, CB, ED, DD/FD and DD CB/FD CB, the instruction executed is the one given by the x-y-z/p-q decomposition of the byte; the three dispatch tables are total.", "quantifier": "every opcode byte under every prefix", "why_tests_cant": "The tables are hand-written ranges; agreement must hold for all 256 entries of every table.", "anchors": ["src/z80/opcodes.rs", "src/cpu/parse.rs"]}
{"id": "C14", "title": "No execution path reaches undefined behaviour", "statement": "No call of an execution method reaches a code arm declared with unreachable_unchecked or unreachable, whatever the CPU state, the opcode bytes and the answers of the host.", "quantifier": "every CPU state, byte sequence and host behaviour", "why_tests_cant": "Reaching such an arm is undefined behaviour, so a passing test run is not evidence.", "anchors": ["src/z80/macros.rs:debug_unreachable_unchecked", "src/z80/instructions.rs", "src/z80/ops.rs:daa"]}
{"id": "C15", "title": "Prefix handling", "statement": "Executing a DD or FD byte costs one M1 cycle, records the prefix and changes nothing else that is observable except R; of a chain of prefixes only the last matters; an unaffected opcode after a prefix behaves exactly as without it; after the prefixed instruction no prefix is pending.", "quantifier": "every CPU state, prefix chain of any length and following opcode", "why_tests_cant": "Chains have unbounded length.", "anchors": ["src/z80/opcodes.rs:execute_instruction", "src/z80.rs:is_after_prefix"]}
{"id": "C16", "title": "Documented T-state counts", "statement": "With no wait states the clock advances, for every instruction, by the number of T-states in the published Z80 table, including both outcomes of conditional and repeating instructions and the DD/FD, CB, ED and DD CB forms.", "quantifier": "every instruction, CPU state and memory content, with any host", "why_tests_cant": "Cycle tests run one chosen state per opcode; the count must be independent of all register values.", "anchors": ["src/z80/instructions.rs", "src/z80/internal.rs", "src/host.rs:TsCounter"]}
{"id": "C17", "title": "Wait states are added exactly as requested", "statement": "The total advance of the clock over an instruction or interrupt equals its base T-states plus exactly the wait states the host returned from its I/O and interrupt-acknowledge callbacks.", "quantifier": "every instruction, host answer sequence and CPU state", "why_tests_cant": "Quantifies over all host answers.", "anchors": ["src/host.rs:Clock", "src/z80/internal.rs:block_in", "src/z80/internal.rs:irq_no_check"]}
{"id": "C18", "title": "Stack round trips", "statement": "PUSH qq followed by POP rr on a RAM host moves the pair qq to rr, restores SP and every other register; the two bytes below SP hold the pushed value, low byte at the lower address; SP wraps modulo 65536.", "quantifier": "every CPU state, SP value and register pair", "why_tests_cant": "Includes wrap-around of SP at every address and aliasing of AF with the local flags.", "anchors": ["src/z80/internal.rs:push2", "src/z80/internal.rs:pop16", "src/z80/internal.rs:push_ss", "src/z80/internal.rs:pop_ss"]}
{"id": "C19", "title": "Calls and returns", "statement": "A CALL or RST that is taken pushes the address of the following instruction and jumps; RET at that SP resumes at the following instruction with SP restored; untaken conditional forms only advance PC.", "quantifier": "every CPU state, target address, condition and flag byte", "why_tests_cant": "Universal over addresses including wrap-around of PC and SP.", "anchors": ["src/z80/instructions.rs:CALL", "src/z80/instructions.rs:RET", "src/z80/instructions.rs:RST"]}
{"id": "C20", "title": "Jumps and relative branches", "statement": "JP, JR, DJNZ and their conditional forms go to the documented target (sign-extended displacement from the address after the instruction, modulo 65536) exactly when the condition holds in the current flags, and otherwise fall through; no register but PC, MEMPTR and, for DJNZ, B changes.", "quantifier": "every CPU state, displacement and condition", "why_tests_cant": "Universal over PC and displacement; conditions over all flag bytes.", "anchors": ["src/z80/instructions.rs:JR", "src/z80/instructions.rs:DJNZ", "src/cpu/parse.rs:Condition", "src/z80/macros.rs:relative_jump_address"]}
{"id": "C21", "title": "LDIR and LDDR copy a whole block", "statement": "Running LDIR (LDDR) on a RAM host to completion performs BC (65536 if BC is 0) single byte copies in order, as the byte-by-byte loop does even when source and destination overlap, ends with BC=0, HL and DE advanced by the count, PC past the instruction, and takes 21 T-states per byte but 16 for the last.", "quantifier": "every source, destination, length and memory content in which the copy does not overwrite the instruction itself", "why_tests_cant": "Unbounded iteration and overlap cases; needs induction on the length.", "anchors": ["src/z80/internal.rs:block_transfer"]}
{"id": "C22", "title": "CPIR and CPDR stop at the first match", "statement": "Running CPIR (CPDR) to completion stops right after the first byte equal to A within the next BC bytes with Z set, or with BC=0 and Z clear if none matches; P/V tells whether BC is non-zero; A and C flag are unchanged.", "quantifier": "every memory content, start, length and A", "why_tests_cant": "Unbounded search; needs induction.", "anchors": ["src/z80/internal.rs:block_search", "src/z80/ops.rs:cpx"]}
{"id": "C23", "title": "Block I/O transfers exactly B bytes in order", "statement": "Running INIR/INDR (OTIR/OTDR) to completion makes exactly B (256 if 0) port accesses, in order, each with the documented port address and data from/to consecutive memory addresses, ending with B=0 and Z set.", "quantifier": "every B, HL, port and host data", "why_tests_cant": "Unbounded over host answers; needs induction.", "anchors": ["src/z80/internal.rs:block_in", "src/z80/internal.rs:block_out", "src/z80/ops.rs:iox"]}
{"id": "C24", "title": "Maskable interrupt acceptance", "statement": "irq() accepts exactly when IFF1 is set, no prefix is pending and the previous instruction was not EI; when it does not accept, it returns None, makes no host call and leaves the CPU unchanged.", "quantifier": "every CPU state and host", "why_tests_cant": "No-effect claim over all states and hosts.", "anchors": ["src/z80.rs:irq", "src/z80.rs:is_irq_allowed"]}
{"id": "C25", "title": "Maskable interrupt effects in modes 1 and 2 and mode 0 with RST", "statement": "On acceptance both IFFs are cleared, R advances once, a halted CPU leaves the halt, the return address (the instruction after HALT if halted) is pushed, and control goes to 0x0038 in mode 1, to the RST address in mode 0, or to the word at I*256+vector in mode 2, taking 13, 13 and 19 T-states plus requested wait states.", "quantifier": "every CPU state, vector and host", "why_tests_cant": "Universal over stack and vector addresses including wrap-around.", "anchors": ["src/z80/internal.rs:irq_no_check"]}
{"id": "C26", "title": "Non-maskable interrupt", "statement": "nmi() accepts exactly when no prefix is pending and the previous instruction was not EI, whatever the IFFs; it clears IFF1, keeps IFF2, leaves halt, pushes the return address, jumps to 0x0066 in 11 T-states; otherwise it is a no-op.", "quantifier": "every CPU state and host", "why_tests_cant": "Universal over states.", "anchors": ["src/z80.rs:nmi", "src/z80/internal.rs:nmi_no_check"]}
{"id": "C27", "title": "EI defers interrupts by exactly one instruction", "statement": "Right after EI neither irq() nor nmi() is accepted; after one further complete instruction that is not EI, DI-like or a prefix, the maskable interrupt is accepted; a run of EI instructions of any length defers it throughout.", "quantifier": "every program, number of EI instructions and CPU state", "why_tests_cant": "Statement over all instruction sequences.", "anchors": ["src/z80.rs:enable_interrupts", "src/z80.rs:is_after_ei", "src/z80.rs:execute_next"]}
{"id": "C28", "title": "Interrupt flip-flop discipline", "statement": "If IFF1 implies IFF2 holds it holds after any sequence of executed instructions, accepted irq and nmi; only DI, EI, RETN/RETI, irq and nmi ever change the flip-flops, in the documented way; an NMI handler ended by RETN restores IFF1.", "quantifier": "every execution history", "why_tests_cant": "Invariant over unbounded histories.", "anchors": ["src/z80.rs:restore_iff1", "src/z80.rs:disable_interrupts", "src/z80.rs:enable_interrupts", "src/z80/instructions.rs:RETN"]}
{"id": "C29", "title": "HALT suspends until an interrupt", "statement": "After HALT each execute_next performs one 4 T-state M1 cycle changing only R; PC stays at the HALT opcode; an accepted irq or nmi resumes, and returning from the handler continues at the instruction following HALT.", "quantifier": "every CPU state, any number of halted steps", "why_tests_cant": "Unbounded waiting.", "anchors": ["src/z80.rs:halt", "src/z80.rs:execute_next", "src/z80/instructions.rs:HALT"]}
{"id": "C30", "title": "HALT state excludes a pending prefix and a pending EI", "statement": "For executions driven by the execution and interrupt methods from reset, a halted CPU never has a pending prefix or pending EI, as execute_with_limit asserts in debug builds.", "quantifier": "every execution history and host", "why_tests_cant": "Reachability over all histories; the assertion is compiled out in release builds.", "anchors": ["src/z80.rs:execute_with_limit", "src/z80.rs:execute_instruction"]}
{"id": "C31", "title": "execute_with_limit refines repeated execute_next", "statement": "execute_with_limit makes the same host calls in the same order and reaches the same CPU state as calling execute_next until the limit is reached or an instruction breaks, apart from limit queries.", "quantifier": "every CPU state, host and limit", "why_tests_cant": "Two separately coded loops must agree on all interleavings of interrupts, EI, prefixes and halts.", "anchors": ["src/z80.rs:execute_with_limit", "src/z80.rs:execute_with_limit_loop", "src/z80.rs:execute_next"]}
{"id": "C32", "title": "Limit and break reasons", "statement": "execute_with_limit returns Ok only when the clock has reached the limit; it returns Halt, WriteIo or Reti only when the last executed instruction was HALT, an OUT whose host callback requested a break, or RETI with a requested break, carrying that value; at a limit already reached it executes nothing.", "quantifier": "every CPU state, host and limit", "why_tests_cant": "Claims about all ways to leave a loop.", "anchors": ["src/z80.rs:execute_with_limit", "src/host.rs:BreakCause"]}
{"id": "C33", "title": "A requested break never changes what the instruction does", "statement": "Whether or not the host asks for a break on an I/O write or RETI, the CPU state and host calls of that instruction are the same; only the returned value differs.", "quantifier": "every output instruction, CPU state and host", "why_tests_cant": "Relates two executions for all hosts.", "anchors": ["src/z80/internal.rs:block_out", "src/z80/instructions.rs:OUT", "src/z80/instructions.rs:RETI"]}
{"id": "C34", "title": "Flavours differ only where documented", "statement": "NMOS, CMOS and BM1 CPUs in corresponding states make the same host calls and reach corresponding states for every instruction other than: X/Y flags of SCF/CCF, the data of OUT (C),0, MEMPTR after LD (rp),A / LD (nn),A / OUT (n),A on BM1, and the P/V of LD A,I|R when an interrupt is pending.", "quantifier": "every instruction, CPU state and host", "why_tests_cant": "Relates executions of different generic instances on all inputs.", "anchors": ["src/z80/flavours.rs"]}
{"id": "C35", "title": "X/Y flags of SCF and CCF follow the flag-modification history", "statement": "On NMOS and BM1, SCF/CCF take X and Y from A if the previous instruction modified the flags and from A|F otherwise, where exactly the flag-affecting instructions count; on CMOS always from A.", "quantifier": "every pair of consecutive instructions and CPU state", "why_tests_cant": "History-dependent over all instruction pairs.", "anchors": ["src/z80/flavours.rs:get_q", "src/z80/flavours.rs:begin_instruction", "src/z80/flavours.rs:flags_modified"]}
{"id": "C36", "title": "Flavour conversions and the dynamic wrapper", "statement": "Converting between flavours keeps every register and control field; NMOS to BM1 and back is the identity; every method of the dynamic any-flavour CPU equals the method of the wrapped CPU; tags round-trip.", "quantifier": "every CPU state", "why_tests_cant": "17 fields, each could be swapped or dropped for states no test distinguishes.", "anchors": ["src/z80.rs:into_flavour", "src/z80/flavours.rs", "src/z80/any.rs:Z80Any"]}
{"id": "C37", "title": "A debugger does not influence execution", "statement": "Executing with a debug callback makes the same other host calls and reaches the same state and result as executing without it; the callback is called at most once per call.", "quantifier": "every CPU state, opcode and host", "why_tests_cant": "Relates two executions for all inputs.", "anchors": ["src/z80/macros.rs:cpu_debug", "src/z80/debug.rs:debug_instruction"]}
{"id": "C38", "title": "Debug records describe the executed bytes", "statement": "For every instruction run by execute_next over stable memory, the reported code is exactly the bytes in memory at the reported address, including the effective prefix, is at most four bytes long and never overflows its fixed-size buffer, and address plus length is where the instruction ends.", "quantifier": "every memory content, PC and CPU state", "why_tests_cant": "The address is recomputed by subtracting a length listed by hand in each instruction arm.", "anchors": ["src/z80/debug.rs:debug_instruction", "src/cpu/debug.rs:CpuDebugCode", "src/z80/instructions.rs"]}
{"id": "C39", "title": "Disassembler terminates and stays inside the memory", "statement": "disasm_memory returns for every memory slice and start address, reports consecutive instructions whose bytes are the slice's bytes, never past its end, and stops on the first callback error.", "quantifier": "every byte slice, start address and callback", "why_tests_cant": "The loop drives a stateful CPU (HALT, prefixes, EI); termination needs a measure.", "anchors": ["src/disasm.rs:disasm_memory", "src/disasm.rs:disasm_memory_once"]}
{"id": "C40", "title": "Serialization round trip", "statement": "Deserializing a serialized CPU yields the same CPU, in map and sequence form, for each flavour and the dynamic wrapper; duplicate fields are rejected and absent optional fields take the documented defaults.", "quantifier": "every CPU state and field order", "why_tests_cant": "All field orders and values.", "anchors": ["src/z80/serde.rs"]}
{"id": "C41", "title": "MEMPTR follows the documented rules", "statement": "After each instruction MEMPTR has the value of the published MEMPTR (WZ) rules, and BIT n,(HL) exposes its high byte in X/Y.", "quantifier": "every instruction and CPU state", "why_tests_cant": "Invisible to most programs, so tests only sample it.", "anchors": ["src/z80/instructions.rs", "src/z80/internal.rs", "src/z80/flavours.rs:memptr_mix"]}
{"id": "C42", "title": "Host clock counter", "statement": "The provided clock counter advances by the documented constants modulo its width, reports I/O and interrupt-acknowledge timestamps at the documented offset within the cycle, and the limit test is the numeric comparison.", "quantifier": "every counter value and any sequence of calls", "why_tests_cant": "Wrapping at every value and all call sequences.", "anchors": ["src/host.rs:TsCounter"]}
{"id": "C43", "title": "Memory is written only where documented", "statement": "Every memory write made by an instruction goes to the address documented for it; instructions without a memory destination write nothing, so on a RAM host the rest of memory is unchanged.", "quantifier": "every instruction, CPU state and host", "why_tests_cant": "Frame condition over all addresses.", "anchors": ["src/z80/internal.rs", "src/z80/instructions.rs"]}
{"id": "C44", "title": "Whole-instruction refinement of a programmer-level specification", "statement": "On a RAM host, each executed instruction transforms registers, flags and memory as given by an independently written programmer-level specification of the Z80.", "quantifier": "every instruction, register state and memory content", "why_tests_cant": "The complete input space of every instruction.", "anchors": ["src/z80/instructions.rs", "src/z80/internal.rs", "src/z80/ops.rs", "src/z80/opcodes.rs"]}
{"id": "C45", "title": "Exact bus-cycle sequence on any host", "statement": "Whatever the host answers, execute_next, execute_instruction, irq and nmi make exactly the host calls of the bus cycles documented for the instruction (opcode fetch, memory read and write, input, output, idle, interrupt acknowledge), in that order, with the documented addresses and data, each cycle announced to the clock before the bus is accessed at the timestamp returned; and they end in the documented registers and report.", "quantifier": "every opcode byte, CPU state, flavour and host (any answers, no assumption that memory keeps what was written)", "why_tests_cant": "A host may answer arbitrarily; no finite set of hosts determines the order and arguments of calls for all register values.", "anchors": ["src/z80.rs", "src/z80/opcodes.rs", "src/z80/instructions.rs", "src/z80/internal.rs", "src/host.rs"]}
{"id": "C46", "title": "Operand parsers", "statement": "The operand parsers of the public API never reach their unreachable_unchecked arm on any byte, depend on their bit field only, and round-trip with operand codes and names; a condition tests exactly its flag.", "quantifier": "every byte, operand and flag register", "why_tests_cant": "Undefined behaviour would need the one byte that falls through; independence from the other bits is a statement about pairs of bytes.", "anchors": ["src/cpu/parse.rs:reg_enum_mask_from", "src/cpu/parse.rs:Reg8", "src/cpu/parse.rs:BitOps", "src/cpu/parse.rs:Condition", "src/cpu/registers.rs:InterruptMode"]}
{"id": "C47", "title": "Debug records name the executed instruction", "statement": "Every record given to a debugger or listed by the disassembler is right about itself: its bytes are one complete instruction (with a DD or FD prefix exactly when that changes it), its prefix field is that prefix, and its mnemonic and operands are those of these bytes at this address in assembly language, with relative jump targets resolved.", "quantifier": "every prefix, opcode and operand byte, CPU state, flavour and host, also during interrupt acceptance with any byte on the bus; every slice and start address for the disassembler", "why_tests_cant": "The texts are spread over hundreds of macro invocations in the instruction code; operand values and jump targets range over all bytes and addresses, prefixes and CB/ED tables multiply the cases.", "anchors": ["src/cpu/debug.rs:CpuDebug", "src/cpu/debug.rs:CpuDebugArgs", "src/z80/opcodes.rs", "src/z80/instructions.rs", "src/z80/macros.rs", "src/disasm.rs"]}
{"id": "C48", "title": "Debug records can always be printed", "statement": "Formatting any delivered record never fails in any of the five formats ({}, {:x}, {:#x}, {:X}, {:#X}): the fixed buffer for the operands never overflows. The line is a function of address and bytes of the instruction, with address, mnemonic, operands and bytes in fixed columns. disasm_memory_write_text writes exactly one such line per listed instruction and fails only when the writer does; disasm_memory_print_text never panics.", "quantifier": "every delivered record (every instruction with every operand value at every address), every format, slice, start address and writer", "why_tests_cant": "The buffer holds exactly the longest text of all instructions; only a few combinations of instruction, operand and format come close to its end.", "anchors": ["src/cpu/debug.rs:CpuDebug", "src/cpu/debug.rs:pad", "src/cpu/parse.rs:Reg8::format_with_prefix", "src/disasm.rs:disasm_memory_write_text", "src/disasm.rs:disasm_memory_print_text"]}
{"id": "C49", "title": "execute_with_limit returns, and soon after the limit", "statement": "In execute_with_limit the clock is asked whether the limit is reached after every instruction, accepted interrupt and halted cycle, and between two such questions at least 4 and at most 23 T-states pass, apart from wait states of at most two device accesses. So with a TsCounter clock, signed or unsigned, execute_with_limit always returns (an endless program cannot hang it), its clock ends less than 23 T-states plus wait states past the limit, and at or past the limit when the result is Ok. The only exception are limits so close to the maximum of the counter that it may overflow before the question is asked.", "quantifier": "every CPU state and flavour, every program and device behaviour, every limit and counter width; for the first part every host", "why_tests_cant": "Termination and the worst-case overshoot are statements about all programs and all interrupt patterns; a test runs one program for a finite time.", "anchors": ["src/z80.rs:execute_with_limit", "src/z80.rs:execute_with_limit_loop", "src/host.rs:TsCounter", "src/host.rs:Clock::is_past_limit"]}
{"id": "C50", "title": "Wrapped hosts and default host methods", "statement": "A host wrapped in a type that forwards all methods with the forward_host_*_methods! macros cannot be told from the host itself: every call of the CPU has the same result, makes the same host calls with the same answers, leaves the wrapped host in the same state and the rest of the wrapper untouched; the @ref and @mut forms together are the @ form. A wrapper that also records interrupt data sees the last byte and changes nothing. Methods left out are the default ones: without Io methods there are no devices, and read_debug plus write_mem alone give plain memory. The answers of read_debug never influence execution without a debugger.", "quantifier": "every host, every wrapper type, every place of the wrapped object, every call of the CPU and every state", "why_tests_cant": "A test compares a wrapper with one host on a few method calls; transparency is a statement about all hosts, all sequences of calls and all programs.", "anchors": ["src/macros.rs:forward_host_clock_methods", "src/macros.rs:forward_host_io_methods", "src/macros.rs:forward_host_memory_methods", "src/host.rs:Io", "src/host.rs:Memory", "src/host.rs:Memory::read_debug"]}
{"id": "C51", "title": "Emulation can be cut into slices", "statement": "Running with execute_with_limit up to a limit has the same effect as calling it with any list of earlier limits first and going on as long as the result is Ok: the same final result, the same CPU state, the same state of the host. A break request, HALT or RETI that ends a run ends it in the same place however the run is cut. Excepted are hosts with a device that puts the opcode of EI on the bus in mode 0 and devices that take an interrupt request back between two immediately repeated queries; for both the claim is refuted by a witness.", "quantifier": "every program, every host whose limit test has no effect, every list of limits not later than the last one, every CPU state reachable from reset", "why_tests_cant": "A test compares a few programs cut in a few places; the property is about every program, every cutting point and every moment an interrupt can arrive, and the call saves and restores the program counter, the flags and the EI and HALT marks at every cut.", "anchors": ["src/z80.rs:execute_with_limit", "src/z80.rs:execute_next", "src/host.rs:Clock::is_past_limit", "src/host.rs:TsCounter"]}
{"id": "C52", "title": "Interrupts are transparent", "statement": "A program that is interrupted any number of times, each time by a handler that gives back the registers and the memory the program uses, goes the same way as the program left alone: the same result of every step, the same registers apart from R, MEMPTR and the interrupt flip-flops, the same memory where the program looks. The program may use all instructions but those that read the excepted registers (LD A,I, LD A,R, BIT n,(HL), SCF, CCF). Accepting an interrupt in mode 1 or 2, running such a handler and returning by RET, RETI or RETN brings the program back to where it was. In particular LDIR and LDDR copy their block correctly however often they are interrupted.", "quantifier": "every program, every number and placement of interrupts, every handler with the stated effect, every host whose answers do not depend on the time nor on what the handler changed", "why_tests_cant": "A test interrupts a few programs in a few places; transparency is about all programs, all places and all handlers, and rests on what every instruction leaves in the registers and on the order in which the repeated instructions set the program counter.", "anchors": ["src/z80.rs:execute_next", "src/z80.rs:irq", "src/z80/internal.rs:irq_no_check", "src/z80/internal.rs:block_transfer", "src/z80/opcodes.rs:execute_next_instruction", "src/z80/instructions.rs:run_mnemonic"]}
{"id": "C53", "title": "Instructions change only their registers", "statement": "Every instruction, executed by execute_instruction, execute_next or as the answer to an interrupt, changes only the registers the published instruction set lists for it: all other registers, main and alternate, SP, I, bit 7 of R, the interrupt flip-flops and the interrupt mode show the same value through the getters afterwards. Accepting an interrupt changes only the flip-flops and SP. The lists are exact: each listed register is changed in some state.", "quantifier": "every opcode with any prefix, every state, every host, every flavour", "why_tests_cant": "That something does not change is a statement about every register in every state; a test compares a few registers after a few instructions.", "anchors": ["src/z80/opcodes.rs:execute_next_instruction", "src/z80/instructions.rs:run_mnemonic", "src/z80/internal.rs:irq_no_check", "src/z80/internal.rs:nmi_no_check", "src/z80.rs:execute_next"]}
{"id": "C54", "title": "Where instructions end", "statement": "The program counter after every instruction, interrupt and halted step is exactly that of the published instruction set: after the instruction's own bytes for all that do not jump, the target of taken jumps, calls, returns and restarts, the instruction's own first byte for repeated instructions that go on, and unchanged while halted; all modulo the size of the address space.", "quantifier": "every opcode with any prefix, every state (the program counter may wrap round), every host, every flavour", "why_tests_cant": "Instruction lengths and conditions combine over more than a thousand opcodes with all flag and counter values; tests follow a few paths.", "anchors": ["src/z80/opcodes.rs:execute_next_instruction", "src/z80/instructions.rs:run_mnemonic", "src/z80/internal.rs:irq_no_check", "src/z80.rs:execute_next"]}
{"id": "C55", "title": "Banked memory of the example computer", "statement": "The memory of the example computer answers every opcode fetch, byte read, word read and write as its memory map says: ROM in the first 8 kilobytes, then RAM for programs in ROM and the selected EX-ROM (or nothing) for all others, then RAM up to its size. Words are read as two bytes across all ends of banks, of the RAM and of the address space. Nothing changes the ROM. The raw pointer to the mapped bank is never read after what it points to was given back, and attaching EX-ROMs panics only when all 256 slots are taken.", "quantifier": "every ROM of up to 8 kilobytes, every size of RAM up to 48 kilobytes, every sequence of fetches, reads, writes, selections, attachments and ejections", "why_tests_cant": "The code reads through raw pointers in unsafe blocks; that they are valid after every history of swaps, selections and ejections is an invariant over all sequences, and undefined behaviour need not show in a test.", "anchors": ["examples/ral1243/src/memory.rs:Memory", "examples/ral1243/src/memory.rs:read_opcode", "examples/ral1243/src/memory.rs:read_mem16", "examples/ral1243/src/memory.rs:eject_exroms", "examples/ral1243/src/memory.rs:write_ctrl"]}
{"id": "C56", "title": "Interrupt daisy chain of the example computer", "statement": "In a chain of counter/timers and parallel ports an interrupt is accepted only of a device with a higher priority than all devices whose interrupts are being served, also while interrupts are enabled in service routines. RETI ends the service of the interrupt accepted last and of no other. The vector is that of the first requesting channel of the first requesting device, and only this request is cleared. A request stays until it is accepted or a program writes to the device. A reset leaves no request and no service. The vectors are those last written by the program, with the number of the channel in bits 1-2 for a counter/timer, and no other write changes them.", "quantifier": "every chain length and order of devices, every connected stream, sink and clock trigger, every sequence of fetches, port accesses, interrupt samples, acknowledgements, returns, frame ends and second wraps", "why_tests_cant": "Priority is kept by flags spread over the devices of a chain and updated lazily when devices are asked; that they always agree with the stack of accepted interrupts is an invariant over all sequences of uses and chains.", "anchors": ["examples/ral1243/src/ctc.rs:Ctc", "examples/ral1243/src/pio.rs:Pio", "examples/ral1243/src/bus.rs:Terminator", "examples/ral1243/src/lib.rs:Ral1243"]}
{"id": "C57", "title": "Timers of the example computer do not depend on when they are looked at", "statement": "A timer channel of the counter/timer starts one T-state after its constant is written and then gets to zero exactly every constant times 16 or 256 T-states. It sends one pulse for each zero, with its exact time and in order, raises its interrupt if enabled, and shows the counts still to go, whenever and however often the emulator looks at it, also when several periods have passed. A new constant takes effect at the next zero. Setting the clock back by a second changes nothing but the origin of time.", "quantifier": "every constant, both prescalers, every state of the channel before it is set up, every sequence of times at which it is looked at, every implementation of triggers", "why_tests_cant": "The code evaluates timers lazily with fixed-point arithmetic; that any partition of time into looks gives the same pulses is a property of all sequences of times, not of some.", "anchors": ["examples/ral1243/src/ctc.rs:Channel::process", "examples/ral1243/src/ctc.rs:Channel::write_control", "examples/ral1243/src/ctc.rs:Channel::read_counter", "examples/ral1243/src/ctc.rs:Channel::next_second"]}
{"id": "C58", "title": "Skipping the counter/timer until its announced times loses no interrupt", "statement": "The emulator looks at the channels of the counter/timer only at the times they announce. No program running on the computer can tell: a timer's interrupt is requested as soon as the chip is asked at or after the time the timer gets to zero, edges of the external clock that have passed while a channel did not count them are gone, and no program can make the emulator panic.", "quantifier": "every timer of a channel, every sequence of uses of the chip (reads, writes, queries for interrupts, ends of interrupt routines, frame ends, seconds), every implementation of triggers and every device behind the chip", "why_tests_cant": "The time to look next is cached in two places that have to agree after every sequence of operations; tests try some sequences, and the ones that break the agreement depend on the relation of two clocks.", "anchors": ["examples/ral1243/src/ctc.rs:Ctc::process_channels", "examples/ral1243/src/ctc.rs:Ctc::write_io", "examples/ral1243/src/ctc.rs:Ctc::is_irq", "examples/ral1243/src/ctc_trigger.rs:CtcActive::purge_clk_trg", "examples/ral1243/src/ctc_trigger.rs:CtcActive::zc_to_pulse"]}
{"id": "C59", "title": "Counters of the example computer count every edge once, also when chained", "statement": "A counter channel of the counter/timer counts the rising or falling edges of the external clock, or the pulses of the channel before it, each exactly once and in order, whenever and however often the emulator looks at it. It sends a pulse with the exact time of the edge whenever its count gets to zero, starts over with its constant, raises its interrupt if enabled, and shows the counts still to go. Chained channels divide the clock by the product of their constants: the second counts exactly the zeros of the first. No edge comes before the time the channel announces as its next.", "quantifier": "every constant, both edges, every non-decreasing sequence of looks, every period of the external clock, every number of cells of the collector of pulses; counters and timers as the first of two chained channels", "why_tests_cant": "Edges are computed lazily from two clocks and passed on through a shift register; that none is lost or counted twice under any sequence of looks needs an invariant about all of them.", "anchors": ["examples/ral1243/src/ctc.rs:Channel::process", "examples/ral1243/src/ctc_trigger.rs:CtcActive::next_clk_trg", "examples/ral1243/src/ctc_trigger.rs:CtcPassive::next_clk_trg", "examples/ral1243/src/ctc_trigger.rs:CtcPulse::shift", "examples/ral1243/src/ctc_trigger.rs:CtcActive::zc_to_pulse"]}
{"id": "C60", "title": "Parallel ports of the example computer hand over every byte once and in order", "statement": "An input channel takes a byte from its stream only after the program has read the one before, and each first read after an interrupt gives the next byte of the stream: none is lost, repeated or reordered. An output channel passes each byte written to its sink exactly once and in order, also when the sink refuses for a while, if the program does not write before the byte before was accepted, which the interrupt tells it. Other uses of the chip, or of the devices before and behind it, do not disturb this.", "quantifier": "every stream and sink (that may refuse at any time), every sequence of uses of the chip, every device behind it, the counter/timer before it", "why_tests_cant": "The handshake keeps its state in flags on both sides that must agree after every interleaving of reads, writes, queries, refusals and acknowledgements.", "anchors": ["examples/ral1243/src/pio.rs:Channel::check_int", "examples/ral1243/src/pio.rs:Channel::read_io", "examples/ral1243/src/pio.rs:Channel::write_io_data", "examples/ral1243/src/pio_device.rs:PioInput::try_sample_data", "examples/ral1243/src/pio_device.rs:PioOutput::ready_with_data", "examples/ral1243/src/pio_device.rs:PioOutput::was_strobe"]}
{"id": "C61", "title": "The example computer keeps to its schedule, whatever it runs", "statement": "FrameRunner::step emulates one frame and reports the T-states it took. After any number of frames, resets and non-maskable interrupts the T-states reported add up to the scheduled number of T-states per frame times the frames, plus at most 22 of an unfinished instruction, plus 11 for every non-maskable interrupt after the last frame: what one frame takes too much the next ones take less, so the emulation never drifts. Every frame ends; the runner meets neither its own panic for an unexpected break nor an overflow of its clock or its limit.", "quantifier": "every program, processor state and flavour, every device that asks for no wait states (the computer's own never do), every sequence of frames, resets and non-maskable interrupts of which at most a given number come in one frame, every clock frequency up to 2 GHz", "why_tests_cant": "The bound holds over unlimited time and for every program; a test runs some seconds of one program, and a drift of one T-state in a rare alignment of instructions and frames would not show.", "anchors": ["examples/ral1243/src/runner.rs:FrameRunner::step", "examples/ral1243/src/runner.rs:FrameRunner::start", "examples/ral1243/src/runner.rs:FrameRunner::nmi", "examples/ral1243/src/clock.rs:TClock::check_wrap_second", "examples/ral1243/src/lib.rs:Ral1243::new"]}
{"id": "C62", "title": "No program makes the emulator of the example computer panic", "statement": "Whatever program runs on the example computer, for however long, none of the emulated parts panics: not the collectors of pulses, the sums and products of timestamps of the counter/timer, the wrapping of its times every second, the modes of the parallel ports, the memory map or the runner. A guest program can misuse the machine, but not end the program that emulates it.", "quantifier": "every ROM, EX-ROM, processor flavour, input stream, output sink and valid clock, every sequence of frames, resets and non-maskable interrupts", "why_tests_cant": "A panic hides in a combination of the moment of an instruction, the state of four channels and the wrap of the clock that a test would have to guess; the absence of panics is a statement about all programs and unlimited time.", "anchors": ["examples/ral1243/src/ctc.rs:Channel::process", "examples/ral1243/src/ctc.rs:Channel::next_second", "examples/ral1243/src/ctc_trigger.rs:CtcActive::zc_to_pulse", "examples/ral1243/src/pio.rs:Channel::write_io_control", "examples/ral1243/src/bus.rs:Bus", "examples/ral1243/src/runner.rs:FrameRunner::step"]}
{"id": "C63", "title": "Calls and returns can be recognised by the opcode constants", "statement": "Every constant of opconsts is the opcode of the one instruction it is named after; a mask and base pair selects exactly the opcodes of the conditional instructions, RST or ED returns it is documented for, with Condition::from_code and from_jr_subset giving the condition that is tested, and building an opcode from a base and a condition gives that instruction. As used by the example computer: given the debug record of a step and the CPU after it, was_just_a_call and was_just_a_ret never panic and tell the truth: if the first says true, the address after the recorded instruction was pushed and SP is two lower; if the second says true, the word at SP was read and is the new PC, and SP is two higher; if neither does, SP is unchanged or execution goes on after the recorded instruction. Prefixes that an instruction does not use do not matter.", "quantifier": "all opcode bytes and conditions; all CPU states, flavours, hosts and runs of execute_next or execute_instruction with a debugger, including interrupts accepted in modes 0 and 1", "why_tests_cant": "The existing tests check a handful of opcodes by their mnemonic; that the masks select nothing else and agree with what the emulator executes in every state, with every prefix and on every host, is a statement about all bytes, states and hosts.", "anchors": ["src/lib.rs:opconsts", "src/cpu/parse.rs:Condition", "examples/ral1243/src/debug.rs:was_just_a_call", "examples/ral1243/src/debug.rs:was_just_a_ret", "src/z80.rs:execute_next"]}
{"id": "C64", "title": "Break points of the example computer stop it where they should", "statement": "run_until_brkpt runs the computer one instruction at a time and returns, at the latest when a frame has passed. If it returns an index, PC is that break point; at no earlier moment was PC at any break point, however it got there (falling through, jumping forwards or back, an interrupt), although the sorted list is searched only when PC passes the next break point or goes back. If it returns None, the frame has passed and no break point was reached before. The duration returned is the time that passed.", "quantifier": "all programs, CPU flavours and states, devices, sorted lists of break points and frame lengths; any correct binary search", "why_tests_cant": "The function skips the search while PC moves forward below the next break point; that no path through a program slips past a break point is a statement about all programs, lists and interleavings with interrupts and frame ends.", "anchors": ["examples/ral1243/src/debug.rs:run_until_brkpt", "examples/ral1243/src/clock.rs:is_past_limit", "src/z80.rs:execute_next"]}
{"id": "C65", "title": "Stepping and running to an interrupt or a return do what they say", "statement": "debug_step executes exactly one instruction together with its prefix, or accepts one interrupt, or does nothing on a halted CPU; it never panics with an invalid CPU state and needs at most two calls of execute_next. The record it returns is that of the instruction executed, with records of its own for a prefix that is followed by another prefix and for an interrupt in mode 2, which shows where it occurred, the address of the vector and the vector. debug_runto_int stops right after the first interrupt accepted, debug_runto_ret right after the first instruction that returned (the word at SP read into PC, SP two higher; conditional returns only if taken), both at the latest when a frame has passed and then with None. They never panic and leave the computer as running it without a debugger does.", "quantifier": "all programs, CPU flavours and states, devices, and frame lengths; interrupts in modes 1 and 2", "why_tests_cant": "Whether stepping can meet the state that makes it panic, and whether a return or interrupt can be missed or reported wrongly, depends on all instructions, prefix sequences, interrupt times and frame boundaries.", "anchors": ["examples/ral1243/src/debug.rs:debug_step", "examples/ral1243/src/debug.rs:debug_runto_int", "examples/ral1243/src/debug.rs:debug_runto_ret", "examples/ral1243/src/debug.rs:irq_debug_update", "examples/ral1243/src/debug.rs:prefix_debug"]}
{"id": "C66", "title": "The debugger's preview shows the instruction executed next", "statement": "debug_preview shows the instruction that debug_step then executes, together with its prefix (fetched before or by the step): the same address, bytes, prefix, mnemonic and operands. The exceptions are those documented: an interrupt is accepted first, a fetch swaps the bank at 0x2000-0x3FFF, or several prefixes are in a row.", "quantifier": "all CPU flavours and states, memory contents, bank selections and devices", "why_tests_cant": "The preview goes through the disassembler, a dummy CPU and a four-byte buffer, the step through the real CPU, banked memory and the clock. That they agree is a statement about all instructions with all prefixes and pending states.", "anchors": ["examples/ral1243/src/debug.rs:debug_preview", "examples/ral1243/src/debug.rs:debug_step", "src/disasm.rs:disasm_memory_once", "examples/ral1243/src/memory.rs:read_debug"]}
{"id": "C67", "title": "Undocumented state never decides what a program does", "statement": "Two CPUs, of the same or of different flavours, whose documented registers are equal (everything the getters show but MEMPTR and bits 3 and 5 of F and F') make exactly the same calls to the host and keep equal documented registers, step after step, through execute_next, execute_instruction, irq and nmi. The only exceptions are PUSH AF, which writes bits 3 and 5, and, between flavours, OUT (C),0 and LD A,I / LD A,R. Flags saved by PUSH AF do no harm as long as only POP AF reads them.", "quantifier": "all pairs of CPU flavours, all pairs of states with equal documented registers, all hosts and all programs", "why_tests_cant": "It compares two executions for every program; a test compares the executions it runs. Undocumented state leaks only through the right sequence of instructions.", "anchors": ["src/z80.rs:Z80", "src/z80/instructions.rs", "src/z80/internal.rs", "src/z80/flavours.rs:Flavour", "src/cpu.rs:Cpu::execute_next"]}
{"id": "C68", "title": "Running to completion steps over calls", "statement": "run_to_completion executes an instruction. If it was a return, that is the result. If it was a call, the computer runs until the instruction after the call is next, which it was not at any moment in between. Otherwise it runs up to and including the next return. In both cases it gives up after FRAME_HZ + 1 frames, and the duration reported is the sum of all parts. DebugRunIrq runs to the next interrupt in the same way (run_for).", "quantifier": "all CPU flavours, programs, devices, states, frame rates and ways to search a sorted slice", "why_tests_cant": "Where a run stops depends on everything executed in between, and on how classification by opcode, break points, frames and the wrap of the clock work together; a test sees one run.", "anchors": ["examples/ral1243/src/thread.rs:run_for", "examples/ral1243/src/thread.rs:run_to_completion", "examples/ral1243/src/debug.rs:was_just_a_call", "examples/ral1243/src/debug.rs:was_just_a_ret", "examples/ral1243/src/debug.rs:irq_debug_update"]}
{"id": "C69", "title": "Debugging keeps to the schedule", "statement": "A started computer whose devices ask for no wait states obeys any sequence of frames, resets, non-maskable interrupts, debug_step, debug_runto_int, debug_runto_ret and run_until_brkpt (with sorted break points that include 0xFFFF) without a panic of the runner or the debugger. The T-states reported add up to the frames that have ended, each of which was reported to the devices exactly once, and what the clock is ahead of the limit, which is less than a frame, an instruction and the last non-maskable interrupts.", "quantifier": "all CPU flavours, programs, devices that ask for no wait states, processor states, clocks with room for the seconds and frames, sequences of commands", "why_tests_cant": "Errors in the bookkeeping of the frame limit, the wrap of the second and the durations build up over commands in any order; a test sees one session of finite length.", "anchors": ["examples/ral1243/src/debug.rs:debug_step", "examples/ral1243/src/debug.rs:debug_runto_int", "examples/ral1243/src/debug.rs:debug_runto_ret", "examples/ral1243/src/debug.rs:run_until_brkpt", "examples/ral1243/src/debug.rs:check_wrap_next_second", "examples/ral1243/src/runner.rs:FrameRunner::step", "examples/ral1243/src/runner.rs:FrameRunner::nmi", "examples/ral1243/src/runner.rs:FrameRunner::reset"]}
{"id": "C70", "title": "The wrap of the second goes unnoticed", "statement": "Once per emulated second the runner of the example computer sets its clock back and tells the devices (next_second). From then on the processor gets from the devices what it would have got without it: the same interrupts and vectors at the same moments, the same bytes and wait states, and no panic that would not have happened.", "quantifier": "all states of the devices at the wrap, all lengths of a second, all sequences of fetches, reads, writes, interrupt tests, acknowledges, RETIs and ends of frames with any times afterwards, all streams and sinks", "why_tests_cant": "The wrap has to set back the times that every channel, trigger and collector has stored, together with two levels of cached times; a slip shows only for some states at the moment of the wrap.", "anchors": ["examples/ral1243/src/ctc.rs:Ctc::next_second", "examples/ral1243/src/ctc.rs:Channel::next_second", "examples/ral1243/src/ctc_trigger.rs:CtcActive::next_second", "examples/ral1243/src/ctc_trigger.rs:CtcPassive::next_second", "examples/ral1243/src/runner.rs:FrameRunner::step"]}
{"id": "C71", "title": "The sorting routines of the test program sort every array", "statement": "Reset, with the test program of the crate in memory and its routine word pointing at one of the selection or insertion sort routines, and run with execute_next until it stops: the CPU halts at the program's HALT with an empty stack, the 256 bytes of the array are a permutation of what they were in ascending (descending) order, nothing outside the array and the stack has changed, no device was used, and the number of T-states lies between the least and the greatest the routine can need.", "quantifier": "all CPU flavours, contents of the array and of all memory outside the program, register contents before the reset, clocks, devices, with and without a debugger", "why_tests_cant": "The test runs the program on the six arrays it has recorded. 256 to the power of 256 arrays are possible, and an error in a flag or a register that some comparison depends on need not show for six of them.", "anchors": ["tests/shuffle_test.rs:test_shuffle_cpu", "tests/shuffle_test.rs:run_debug", "tests/shuffle_test.rs:assert_mem_sorted", "tests/shuffle/shuffle.bin", "tests/shuffle/shuffle.meta", "src/z80.rs:execute_next"]}
{"id": "C72", "title": "The example of the documentation calculates Fibonacci numbers", "statement": "Reset, with register B set to n and the eleven bytes of the documentation's example in memory from address 0 on, and run with execute_next until it stops: the CPU halts at the HALT instruction, HL is the n-th Fibonacci number modulo 65536 (0 counts as 256), exactly 10+10+n*(4+11+13)-5+4 T-states have passed, and neither memory nor devices were changed. For n from 1 to 24 HL is the Fibonacci number itself.", "quantifier": "all n, CPU flavours, register contents before the reset, contents of the memory outside the program, clocks, devices, with and without a debugger", "why_tests_cant": "The example asserts the result and the time of a single n for a single CPU flavour in its default state.", "anchors": ["src/lib.rs:Example", "examples/embedded/embedded.rs:main", "src/z80.rs:execute_next", "src/z80/opcodes.rs"]}
{"id": "C73", "title": "The multiplication of the test program is right for all numbers, and so is the text it prints", "statement": "Reset, with the test program of the crate in memory and its routine word pointing at the routine mul_seed, and run with execute_next until it stops: the CPU halts at the program's HALT with an empty stack, the four bytes of the variables seed and multiplicator hold the product of the two as a 32-bit little-endian number, the bytes sent to port 0x42 are in order the decimal digits of the product without leading zeros, as format! would write it, and nothing outside the variables, the buffer and the stack has changed.", "quantifier": "all pairs of 16-bit numbers, CPU flavours, register contents before the reset, contents of the memory outside the program, clocks, devices whose port 0x42 takes the bytes without wait states and breaks, with and without a debugger", "why_tests_cant": "The test multiplies the six pairs it has recorded. There are more than four billion pairs; the routine depends on carries through ADD, ADC, RR, SRL, RLA and SCF, the printing on DAA and RLD, and an error in one flag need not show in six products.", "anchors": ["tests/shuffle_test.rs:test_shuffle_cpu", "tests/shuffle/mod.rs:write_io", "tests/shuffle/shuffle.bin", "tests/shuffle/shuffle.meta", "src/z80.rs:execute_next", "src/z80/instructions.rs"]}
{"id": "C74", "title": "The usual multi-byte addition and subtraction loops are right for numbers of any length, in binary and in packed decimal", "statement": "A CPU with interrupts disabled, PC at the loop LD A,(DE); ADC A,(HL) or SBC A,(HL); optionally DAA; LD (DE),A; INC HL; INC DE; DJNZ; HALT, and HL and DE at two little-endian numbers of as many bytes as B says (0 counts as 256), run with execute_next until it stops, halts at the HALT; the number at DE is then the sum (or difference) of the two numbers and the carry flag modulo 256 to the number of bytes (100 to the number of bytes with DAA), the carry flag is the carry (or borrow) out, HL and DE are behind the numbers, B is 0, C and SP and all memory outside the result are unchanged, and exactly 46 (50) T-states per byte less 1 have passed.", "quantifier": "all addresses of the loop and of the numbers that do not overlap harmfully, all numbers and lengths of 1 to 256 bytes, both carries in, CPU flavours, other register contents, contents of the memory, clocks, devices, with and without a debugger", "why_tests_cant": "The tests of the crate check single ADC, SBC and DAA instructions on a few values; whether the carry, half carry and subtract flags they leave survive the INC, LD and DJNZ between the bytes and make a number of 256 bytes right is a claim about all sequences of values, of which there are 256^512.", "anchors": ["src/z80.rs:execute_next", "src/z80/ops.rs:adc", "src/z80/ops.rs:sbc", "src/z80/ops.rs:daa", "src/z80/instructions.rs"]}
{"id": "C75", "title": "IX and IY are perfectly alike", "statement": "Exchange the contents of IX and IY (and a pending DD prefix with FD) in a CPU, and let the host show it FD for DD and DD for FD whenever it reads the first opcode of a step (from memory, or from the device in interrupt mode 0). Any number of calls of execute_next then report the same results, make the same calls to the host and leave it in the same state, and end with the same registers, MEMPTR, R, flip-flops and T-states, only with IX and IY exchanged. The same holds of execute_instruction given the other prefix. No other byte is exchanged: the opcode after CB, the displacement and operand bytes, and the opcode of DD CB and FD CB are shown as they are.", "quantifier": "all CPU states (also halted, after EI, between prefix and opcode), all numbers of steps, all programs, hosts, devices, interrupts, flavours", "why_tests_cant": "IX and IY share code by way of a Prefix argument that many places of the implementation have to pass on; one place that forgets, or that tests for DD only, shows for one opcode in one state, and the tests of the crate try few of the indexed opcodes.", "anchors": ["src/z80.rs:execute_next", "src/z80.rs:execute_instruction", "src/cpu/parse.rs:Prefix", "src/z80/any.rs"]}
{"id": "C76", "title": "The debugger shows what its titles say", "statement": "Displaying any delivered debug record together with any CPU never fails, in one line ({}) and in two ({:#}). Each line is exactly as long as the header; it begins with address, name, operands and bytes of the instruction in columns of fixed width; and directly below each title of the header, which occurs there only once, is the content of exactly the register named, most significant digit first (flags as bits in the order SZYHXPNC, IFF1, IFF2 and the interrupt mode, I and R as the getters give them). The preview has the same columns. Nothing is lost: equal screens imply the same address and bytes of the instruction and the same value of every register, alternative register, flip-flop, interrupt mode and MEMPTR.", "quantifier": "all records right about themselves (all those delivered by the CPU or found by the disassembler), all CPU states, all flavours, both layouts", "why_tests_cant": "The lines are written by hand with up to twenty arguments in a row; exchanged arguments of the same type or a width that is exceeded for one instruction only are seen only with the right values in the right registers. No test formats anything.", "anchors": ["examples/ral1243/src/debug.rs:Header", "examples/ral1243/src/debug.rs:format_instr", "examples/ral1243/src/debug.rs:format_preview", "examples/ral1243/src/debug.rs:format_code", "examples/ral1243/src/debug.rs:format_debug", "examples/ral1243/src/debug.rs:format_debug_alt", "src/cpu/debug.rs:CpuDebugArgs"]}
{"id": "C77", "title": "The way a host keeps time does not matter", "statement": "The CPU only hands timestamps on. Take two hosts, possibly with different Timestamp types and clocks, whose states and timestamps correspond: from states that correspond, clock methods return timestamps that correspond, memory and I/O methods given such timestamps return the same, and states that correspond remain. Then any sequence of execute_next, execute_instruction, irq and nmi reports the same on both, leaves the same CPU state, and leaves host states that correspond. In particular, with 64 KiB of memory and any devices that do not look at the time: starting a TsCounter k T-states later, wherever it wraps, changes nothing but that it is k T-states later at the end; a TsCounter of fewer bits gives the same execution and ends with the low bits of the wider one; signed and unsigned counters agree. The same holds with execute_with_limit among the calls if the limits given on both sides are reached at the same time (is_past_limit answers the same in corresponding states). In particular a clock that counts frames, and T-states from the beginning of the frame, gives the same execution as one that counts T-states, with limits given in the same way.", "quantifier": "all pairs of corresponding hosts, all sequences of calls, limits, CPU states, flavours, programs, widths, frame lengths, start times", "why_tests_cant": "Tests run with one counter type from one start time; a comparison of timestamps or a time kept inside the CPU would only be seen where a counter wraps, or with a clock nobody has written yet.", "anchors": ["src/host.rs:Clock", "src/host.rs:TsCounter", "src/z80.rs:execute_next", "src/z80.rs:execute_instruction", "src/z80.rs:irq", "src/z80.rs:nmi", "src/z80.rs:execute_with_limit"]}
{"id": "C78", "title": "The thread of the example computer does what it is told, in order", "statement": "Whatever messages arrive whenever, the thread takes them in the order sent, each once, and ends at Terminate or when the channel is closed and not otherwise. A press of the button of the non-maskable interrupt is neither lost nor doubled: the interrupt is tried before anything else is executed, is refused only while the processor cannot be interrupted (after EI or a prefix), is then tried again before the next frame or order, in and out of the debugger, and is cancelled only by Reset. Frames run only outside of the debugger; inside, each order is carried out exactly once and nothing else is executed. The T-states shown are those of the last order plus those of the interrupts accepted since. A header comes before the first line of a debugging session and after every twelve lines.", "quantifier": "all sequences of messages and of moments without one, all programs, devices, CPU states and flavours", "why_tests_cant": "The thread has four kinds of state (request, debugging, lines, T-states) that survive from one message to the next; a request lost only after EI just before the debugger is entered needs the right message at the right instruction. Nothing in the example is tested.", "anchors": ["examples/ral1243/src/thread.rs:run", "examples/ral1243/src/thread.rs:debug", "examples/ral1243/src/thread.rs:RunnerMsg", "examples/ral1243/src/runner.rs:FrameRunner::nmi"]}
{"id": "C79", "title": "The thread of the example computer ends when told to", "statement": "The thread of a started computer whose devices ask for no wait states handles every sequence of messages without a panic of the runner or the debugger and ends with it: every order of the debugger is carried out in finite time, the clock and the limit do not wrap around, and the clock is never ahead of the limit by more than a frame, an instruction and the interrupts since.", "quantifier": "all sequences of messages, programs, devices that ask for no wait states, CPU states, flavours, clocks with room for the seconds and frames", "why_tests_cant": "The panics and endless loops need particular programs together with long sequences of keys.", "anchors": ["examples/ral1243/src/thread.rs:run", "examples/ral1243/src/thread.rs:debug", "examples/ral1243/src/thread.rs:RunnerMsg", "examples/ral1243/src/thread.rs:run_to_completion", "examples/ral1243/src/thread.rs:run_for", "examples/ral1243/src/clock.rs:TClock::check_wrap_second"]}
{"id": "C80", "title": "Lines of a listing tell instructions apart", "statement": "Of two records given to debuggers or by the disassembler for the same address, mnemonic and formatted arguments are equal, in any of the five formats and with any width, if and only if the recorded codes are encodings of the same instruction: equal, or both among the known duplicates (NEG, RETN, IM n and operations without effect after ED, LD (nn),HL and LD HL,(nn) after ED, BIT n,(IX+d) with any register field). Duplicates do the same.", "quantifier": "all pairs of complete instructions, all addresses, formats and widths; all executions that give records", "why_tests_cant": "There are about ten million encodings with operands, hence 10^14 pairs, for each address and format; an ambiguity would show up only for a particular pair.", "anchors": ["src/cpu/debug.rs:CpuDebug", "src/cpu/debug.rs:CpuDebugArgs", "src/cpu/debug.rs:CpuDebugAddr", "src/z80/debug.rs", "src/disasm.rs:Disasm::disasm_memory"]}
{"id": "C81", "title": "A halted CPU can be fast-forwarded", "statement": "While a halted CPU finds no interrupt request (or interrupts are disabled), j of its steps in execute_with_limit can be replaced by add_r(j) and 4*j T-states on the clock: the call then returns the same result, with the same CPU state, clock and host, whatever happens afterwards, including a request that ends the HALT state. Without requests the call reaches the limit after (limit - clock + 3) / 4 steps and overshoots it by less than 4. The same holds for repeated calls of execute_next, with or without a debugger.", "quantifier": "all halted CPU states, flavours, hosts, clock widths, numbers of steps, limits", "why_tests_cant": "The advice in the documentation of add_r is an equivalence between a loop of any length and two additions, for every host and every later behaviour.", "anchors": ["src/cpu.rs:Cpu::add_r", "src/z80.rs:add_r", "src/z80.rs:execute_with_limit", "src/z80.rs:execute_next", "src/host.rs:TsCounter"]}
{"id": "C82", "title": "The HALT state can be entered from outside", "statement": "halt() and execute_instruction with the opcode of HALT enter the HALT state without involving the clock or the host, and an interrupt accepted later returns to where the program was. (True of execute_instruction. After halt() the interrupt returns one byte further, and if a prefix or EI was pending, no interrupt is ever accepted by execute_next, irq and nmi.)", "quantifier": "all CPU states, flavours, hosts, sequences of calls", "why_tests_cant": "The existing test looks at is_halt after halt(); where programs continue after the next interrupt, and that a state is never left, are statements about all later calls and hosts.", "anchors": ["src/cpu.rs:Cpu::halt", "src/z80.rs:halt", "src/z80.rs:execute_instruction", "src/z80/internal.rs:irq_no_check", "src/z80/internal.rs:nmi_no_check", "src/z80/instructions.rs:HALT"]}
{"id": "C83", "title": "The quick sort routines of the test program sort every array", "statement": "Reset, with the test program of the crate in memory and its routine word pointing at one of the two quick sort routines, and run with execute_next until it stops: the CPU halts at the program's HALT with an empty stack, the 256 bytes of the array are a permutation of what they were in ascending (descending) order, and nothing outside the array and the stack is ever written. (True as long as the routine does not call itself with the stack used up, which it does for some arrays: then memory below the stack is overwritten.)", "quantifier": "all CPU flavours, contents of the array and of all memory outside the program, register contents before the reset, clocks, devices, with and without a debugger", "why_tests_cant": "The test runs the program on arrays it has recorded. Whether a partition leaves its pointers within the part for every content, and how deep the recursion goes, depends on the content: the arrays for which the stack is too small are specially made ones that no recorded test contains.", "anchors": ["tests/shuffle_test.rs:run_debug", "tests/shuffle/shuffle.bin", "tests/shuffle/shuffle.meta", "src/z80.rs:execute_next"]}
{"id": "C84", "title": "The shuffling routine of the test program makes a permutation that the seed alone decides", "statement": "Reset, with the test program of the crate in memory and its routine word pointing at the shuffling routine, and run with execute_next until it stops: the CPU halts at the program's HALT with an empty stack; the array holds each of the numbers from 0 to 255 once, in the order given by the inside-out shuffle with places drawn from the generator s -> 75*(s+1) mod 65537 - 1 (masked, and drawn again while above the current place); the seed left is the last one generated; what has been in memory, the CPU and its flavour have no influence on either. Nothing is written outside the seed, the array and ten bytes of stack. The generator alone replaces the seed by the next one, and from any seed it reaches every other, so that drawing again always comes to an end. A shuffled array that is sorted has each number at its own place.", "quantifier": "all CPU flavours, seeds, contents of all memory outside the program, register contents before the reset, clocks, devices, with and without a debugger", "why_tests_cant": "The test compares the array for six seeds of 65536 with recorded files. That the routine stops at all for the others depends on the generator: a cycle of seeds whose masked bytes are all too large would keep it drawing for ever.", "anchors": ["tests/shuffle_test.rs:run_debug", "tests/shuffle/shuffle.bin", "tests/shuffle/shuffle.rb:shuffle", "src/z80.rs:execute_next"]}
{"id": "C85", "title": "The terminal of the example computer does what the bytes say, and never panics", "statement": "Every sequence of bytes that the example computer sends to its terminal is, in exactly one way, a sequence of codes (characters, beep, clear, cursor movements, 16 row column, 21 visibility) followed by the beginning of at most one more code; the terminal does exactly these operations to its window in this order, and keeps the beginning until the rest comes. Whatever bytes come and whatever keys are pressed, it never panics; after the keys for reset and interrupt no sequence is pending; ASCII characters typed are sent to the computer in order and nothing else is; function keys send the messages and other keys the codes that the documentation gives; the direction keys send the codes that move the cursor in their direction; whenever nothing comes for the time of a turn, everything done to the window has been shown; the loop ends exactly when F10 is pressed, the computer is gone or cannot be sent to, and then, and only then, the thread is told to terminate.", "quantifier": "all sequences of bytes, keys, time-outs and failures to send, all windows whose cursor position is an i32 below the maximum", "why_tests_cant": "There is no test of the terminal. The state between two bytes depends on the whole history, and keys may be pressed in the middle of any sequence.", "anchors": ["examples/terminal.rs:main", "examples/README.md", "examples/ral1243/README.md"]}
{"id": "C86", "title": "The terminal accepts a clock frequency exactly when it is in range", "statement": "A frequency in kHz on the command line of the terminal is accepted if and only if it is from 100 to 40000 and divisible by 20, and the computer then runs at that frequency; otherwise the program ends with an error message. (False for numbers from 4294968 on, which overflow when converted to Hz: some are accepted as a different frequency, or the program panics, depending on how it was built.)", "quantifier": "all frequencies, programs built with and without overflow checks", "why_tests_cant": "There are 2^32 numbers to be given, and the failure shows in release builds only.", "anchors": ["examples/terminal.rs:main", "examples/ral1243/src/lib.rs:check_clock", "examples/ral1243/src/runner.rs:clock_is_valid"]}
{"id": "C87", "title": "The example program for embedded devices does not panic", "statement": "The example of the crate documentation and for embedded devices, whose host is an array of 11 bytes indexed with the address, comes to its last loop after finitely many calls of execute_next: no address outside the 11 bytes is ever read, HALT is reported, and both assertions (Fibonacci number, T-states) hold. The same for any number from 1 to 255 in the place of 24 with its Fibonacci number modulo 65536; with 0 the assertion about T-states fails.", "quantifier": "all CPU flavours, register contents before the reset, numbers", "why_tests_cant": "The documentation test runs one number on one CPU state. That no other address is ever read is a property of all calls of the host that the CPU makes, including those for a debugger.", "anchors": ["examples/embedded/embedded.rs:main", "src/lib.rs", "src/z80.rs:execute_next", "src/host.rs:Memory", "src/host.rs:Io"]}
{"id": "C88", "title": "The interrupt routines in the ROM of the example computer give the processor back as it was", "statement": "With the ROM of the example computer in memory, interrupt mode 2 and I = 1: an interrupt with vector 0 (first counter) accepted at any moment adds one to the 32-bit frame counter at 0x2000 modulo 2^32 and returns to the interrupted program, in HALT to the instruction after it, with all registers as they were, interrupts enabled, and memory unchanged but for the counter and six bytes below the stack pointer; it takes a number of T-states that depends only on the wait states and the number of bytes of the counter that turn over, and the devices see one acknowledge and one RETI at 0x126. Interrupts with vectors 2, 4 and 6 return at once. The interrupt with vector 8 (a character received) returns the same way, if no other interrupt is requested at its end: with an empty buffer the character is read once from port 8 and stored at 0x2004, with a full one the buffer is kept, nothing is read and a flag is set. The interrupt with vector 10 (a character taken by the output device) returns the same way: a character waiting at 0x2006 is written once to port 10 and its flag is reset, and if none waits nothing is written and the busy flag is reset. A non-maskable interrupt returns after 101 T-states with all registers as they were and IFF1 = IFF2 if bit 1 of the flags at 0x2007 is reset. RST 18h, 20h and 30h with interrupts disabled are calls of the routine whose address is in IX, IY or HL.", "quantifier": "all CPU flavours, register contents, contents of memory beyond the ROM bytes, stack pointers with room outside ROM and system variables, devices, wait states, times", "why_tests_cant": "A test interrupts a few programs in a few states; that every register and every byte of memory comes back whenever the interrupt arrives, also when the counter turns over after 2^32 frames, is a statement about all states.", "anchors": ["examples/ral1243/rom/rom.bin", "examples/ral1243/rom/ral1243_rom.rb", "examples/ral1243/README.md", "src/z80.rs:execute_next", "src/z80.rs:nmi", "src/host.rs:Io"]}
{"id": "C89", "title": "Programs of the example computer get the characters typed in the order they were received", "statement": "With the ROM of the example computer in memory, RST 08h executed with interrupts enabled or disabled, no interrupt being requested during the call: if no character waits and carry is reset it returns with the zero flag set and A unchanged; otherwise, if characters wait, it returns with the zero flag reset and the first of them in A, the others still waiting in the same order, the second one being read once from port 8 of the device into the buffer. All registers but A, F, HL' and the refresh counter come back, interrupts are enabled afterwards, and memory is unchanged but for the buffer, its flags and at most four bytes below the stack pointer. The interrupt routine for a character received puts it behind those that wait, as long as the device had none.", "quantifier": "all CPU flavours, register contents, contents of memory beyond the ROM bytes, stack pointers with room outside ROM and system variables, devices, wait states, times", "why_tests_cant": "A test types a few characters at a few moments; that none is lost, doubled or reordered and that no register is disturbed for any state of the caller is a statement about all states.", "anchors": ["examples/ral1243/rom/rom.bin", "examples/ral1243/rom/ral1243_rom.rb rst08, char_input_continue, char_input_int_handler", "examples/ral1243/README.md", "src/z80.rs execute_next"]}
{"id": "C90", "title": "A character given to the output call of the example computer is sent once", "statement": "With the ROM of the example computer in memory, RST 10h executed with interrupts enabled or disabled, no interrupt being requested during the call: if the device is free the character in A is written once to port 10 and the device is marked busy; if it is busy and the buffer is empty nothing is written and the character is kept, so that the next interrupt of the device writes exactly that character and leaves the flags as they were before the call; in both cases the zero flag is set. If the buffer is full and carry is set nothing is written, the buffer keeps its character and the zero flag is reset. All registers but F, HL' and the refresh counter come back, interrupts are enabled afterwards, and memory is unchanged but for the buffer, the flags and two bytes below the stack pointer.", "quantifier": "all CPU flavours, register contents, contents of memory beyond the ROM bytes, stack pointers with room outside ROM and system variables, devices, wait states, times", "why_tests_cant": "A test sends a few characters at a few moments; that none is lost or doubled and that no register is disturbed for any state of the caller and the flags is a statement about all states.", "anchors": ["examples/ral1243/rom/rom.bin", "examples/ral1243/rom/ral1243_rom.rb rst10, char_output_continue, char_output_int_handler", "examples/ral1243/README.md", "src/z80.rs execute_next"]}
