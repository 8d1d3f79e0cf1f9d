{
 "claims": [
  {
   "property": "C01",
   "status": "proved",
   "theorems": [
    "Z80.C01_add",
    "Z80.C01_adc",
    "Z80.C01_executed"
   ],
   "note": "Proved for every operand and incoming flag value against integer arithmetic. The executed forms state result, flags, memory accesses and every other register for the whole instruction, with any host and any operand form."
  },
  {
   "property": "C02",
   "status": "proved",
   "theorems": [
    "Z80.C02_sub",
    "Z80.C02_sbc",
    "Z80.C02_cp",
    "Z80.C02_neg",
    "Z80.C02_executed",
    "Z80.C02_executed_cp",
    "Z80.C02_executed_neg"
   ],
   "note": "Proved for every operand and incoming flag value against integer arithmetic. The executed forms state result, flags, memory accesses and every other register for the whole instruction, with any host and any operand form."
  },
  {
   "property": "C03",
   "status": "proved",
   "theorems": [
    "Z80.C03_inc",
    "Z80.C03_dec",
    "Z80.C03_executed",
    "Z80.C03_executed_mem"
   ],
   "note": "Proved for every operand and incoming flag value against integer arithmetic. The executed forms state result, flags, memory accesses and every other register for the whole instruction, with any host and any operand form."
  },
  {
   "property": "C04",
   "status": "proved",
   "theorems": [
    "Z80.C04_add16",
    "Z80.C04_adc16",
    "Z80.C04_sbc16",
    "Z80.C04_executed",
    "Z80.C04_executed_carry"
   ],
   "note": "Proved for every operand and incoming flag value against integer arithmetic. The executed forms state result, flags, memory accesses and every other register for the whole instruction, with any host and any operand form."
  },
  {
   "property": "C05",
   "status": "proved",
   "theorems": [
    "Z80.C05_logic",
    "Z80.C05_cpl_scf_ccf",
    "Z80.C05_executed",
    "Z80.C05_executed_cpl_scf_ccf"
   ],
   "note": "Proved for every operand and incoming flag value against integer arithmetic. The executed forms state result, flags, memory accesses and every other register for the whole instruction, with any host and any operand form."
  },
  {
   "property": "C06",
   "status": "proved",
   "theorems": [
    "Z80.C06_daa",
    "Z80.C06_bcd_add",
    "Z80.C06_bcd_sub",
    "Z80.C06_executed",
    "Z80.C06_executed_add",
    "Z80.C06_executed_sub"
   ],
   "note": "Proved for every operand and incoming flag value against integer arithmetic. The executed forms state result, flags, memory accesses and every other register for the whole instruction, with any host and any operand form."
  },
  {
   "property": "C07",
   "status": "proved",
   "theorems": [
    "Z80.C07_shifts",
    "Z80.C07_acc_rotates",
    "Z80.C07_inverses",
    "Z80.C07_executed_acc",
    "Z80.C07_executed"
   ],
   "note": "Proved for every operand and incoming flag value against integer arithmetic. The executed forms state result, flags, memory accesses and every other register for the whole instruction, with any host and any operand form."
  },
  {
   "property": "C08",
   "status": "proved",
   "theorems": [
    "Z80.C08_set_res",
    "Z80.C08_bit",
    "Z80.C08_rld_rrd",
    "Z80.C08_rld_rrd_inverse",
    "Z80.C08_executed",
    "Z80.C08_executed_bit",
    "Z80.C08_executed_rld_rrd"
   ],
   "note": "Proved for every operand and incoming flag value against integer arithmetic. The executed forms state result, flags, memory accesses and every other register for the whole instruction, with any host and any operand form."
  },
  {
   "property": "C09",
   "status": "proved",
   "theorems": [
    "Z80.C09_get_reg",
    "Z80.C09_set_reg",
    "Z80.C09_set_get_reg",
    "Z80.C09_acc_flags",
    "Z80.C09_get_reg16",
    "Z80.C09_get_alt",
    "Z80.C09_set_reg2",
    "Z80.C09_set_reg16",
    "Z80.C09_set_get_reg16",
    "Z80.C09_get_index",
    "Z80.C09_set_index",
    "Z80.C09_set_other",
    "Z80.C09_set_r"
   ],
   "note": "Proved for every CPU state."
  },
  {
   "property": "C10",
   "status": "proved",
   "theorems": [
    "Z80.C10_api_ex_af_af",
    "Z80.C10_api_exx",
    "Z80.C10_ex_af_af",
    "Z80.C10_exx",
    "Z80.C10_ex_de_hl",
    "Z80.C10_twice"
   ],
   "note": "Proved for every CPU state."
  },
  {
   "property": "C11",
   "status": "proved",
   "theorems": [
    "Z80.C11_instruction",
    "Z80.C11_next",
    "Z80.C11_irq",
    "Z80.C11_nmi",
    "Z80.C11_history",
    "Z80.C11_bit7",
    "Z80.C11_add_r",
    "Z80.C11_add_r_neg",
    "Z80.C11_inc_r",
    "Z80.C11_add_r_get",
    "Z80.C11_normalize_r"
   ],
   "note": "For every host, every state and every history of calls of the execution and interrupt methods; history form under the hypothesis that the bytes ED 4F are not delivered in a row (that is LD R,A)."
  },
  {
   "property": "C12",
   "status": "proved",
   "theorems": [
    "Z80.C12_reset",
    "Z80.C12_nmos",
    "Z80.C12_cmos",
    "Z80.C12_bm1",
    "Z80.C12_values",
    "Z80.C12_interrupts"
   ],
   "note": "Proved for every CPU state."
  },
  {
   "property": "C13",
   "status": "proved",
   "theorems": [
    "Z80.C13_tables_total",
    "Z80.C13_table0",
    "Z80.C13_tableEd",
    "Z80.C13_tableCb",
    "Z80.C13_tableI",
    "Z80.C13_executed",
    "Z80.C13_executed_cb",
    "Z80.C13_executed_xcb",
    "Z80.C13_executed_ed"
   ],
   "note": "Tables total; arms and parsed operands are those of the x-y-z fields for every byte; calls and final state on any host are those of the decoded instruction, without prefix, after DD/FD, CB, DD CB/FD CB and ED."
  },
  {
   "property": "C14",
   "status": "proved",
   "theorems": [
    "Z80.C14_instruction",
    "Z80.C14_next",
    "Z80.C14_irq",
    "Z80.C14_limit"
   ],
   "note": "For every host (any answers) and every CPU state, histories of any length."
  },
  {
   "property": "C15",
   "status": "proved",
   "theorems": [
    "Z80.C15_prefix",
    "Z80.C15_prefix_next",
    "Z80.C15_chain",
    "Z80.C15_chain_effect",
    "Z80.C15_unaffected",
    "Z80.C15_consumed",
    "Z80.C15_as_without",
    "Z80.C15_scf_ccf"
   ],
   "note": "Any host: a prefix byte is one M1 cycle and records the prefix; chains of any length by induction; opcodes not using HL run the same without the prefix; the prefix is consumed. Found: the byte also counts as an instruction leaving the flags alone, so X and Y of SCF/CCF on NMOS and BM1 may differ (C15_scf_ccf)."
  },
  {
   "property": "C16",
   "status": "proved",
   "theorems": [
    "Z80.C16_execute_instruction",
    "Z80.C16_execute_next",
    "Z80.C16_irq",
    "Z80.C16_irq_mode0",
    "Z80.C16_nmi",
    "Z80.C16_counter"
   ],
   "note": "Any host: clocked T-states of every run equal the published table (incl. prefix, taken/not taken, repeating), interrupts 13/19/11, mode 0 +2; with TsCounter the counter advances by them."
  },
  {
   "property": "C17",
   "status": "proved",
   "theorems": [
    "Z80.C17_execute_next",
    "Z80.C17_execute_instruction",
    "Z80.C17_irq",
    "Z80.C17_nmi",
    "Z80.C17_counter"
   ],
   "note": "Any host: wait states told to the clock equal those asked for, for execute_next, execute_instruction, irq, nmi; TsCounter advances by base + asked."
  },
  {
   "property": "C18",
   "status": "proved",
   "theorems": [
    "Z80.C18_push_pop",
    "Z80.C18_executed_push",
    "Z80.C18_executed_pop"
   ],
   "note": "Every pair of registers for PUSH and POP with every index prefix, every CPU state and memory, SP wrapping included. C18_push_pop: 64K RAM with arbitrary devices, memory afterwards byte for byte. C18_executed_push/_pop: any host, accesses in order and all getters afterwards."
  },
  {
   "property": "C19",
   "status": "proved",
   "theorems": [
    "Z80.C19_call",
    "Z80.C19_rst",
    "Z80.C19_call_ret",
    "Z80.C19_ret_skip",
    "Z80.C19_executed_call",
    "Z80.C19_executed_rst",
    "Z80.C19_executed_ret"
   ],
   "note": "CALL, CALL cc, RST and RET, RET cc for every state, target and memory; C19_call_ret is about any state reached with the same SP and the pushed bytes intact, so calls nest (64K RAM with arbitrary devices). C19_executed_*: any host, accesses in order and all getters afterwards."
  },
  {
   "property": "C20",
   "status": "proved",
   "theorems": [
    "Z80.C20_jp",
    "Z80.C20_jp_hl",
    "Z80.C20_jr",
    "Z80.C20_djnz",
    "Z80.C20_executed_jp",
    "Z80.C20_executed_jr"
   ],
   "note": "JP, JP cc, JP (HL), JR, JR cc and DJNZ for every state and memory; targets modulo 65536 (64K RAM with arbitrary devices). C20_executed_*: any host, accesses in order and all getters afterwards."
  },
  {
   "property": "C21",
   "status": "proved",
   "theorems": [
    "Z80.C21_run",
    "Z80.C21_intact",
    "Z80.C21_block",
    "Z80.C21_fill"
   ],
   "note": "Any BC, addresses and memory for which the instruction is still in place each time it is fetched (C21_intact gives a sufficient condition); closed forms without harmful overlap (C21_block) and for the fill idiom (C21_fill). Host: 64K RAM with arbitrary devices, no interrupt accepted meanwhile."
  },
  {
   "property": "C22",
   "status": "proved",
   "theorems": [
    "Z80.C22_stops",
    "Z80.C22_run"
   ],
   "note": "Any A, BC, start and memory; the stopping point exists and is unique (C22_stops). Host: 64K RAM with arbitrary devices, no interrupt accepted meanwhile."
  },
  {
   "property": "C23",
   "status": "proved",
   "theorems": [
    "Z80.C23_in",
    "Z80.C23_out",
    "Z80.C23_in_log",
    "Z80.C23_out_log",
    "Z80.C23_time"
   ],
   "note": "Any B, C, HL and memory, arbitrary devices with wait states; ports, data and order in C23_in_log and C23_out_log; T-states in C23_time. For the inputs the instruction must not be overwritten. Host: 64K RAM, no interrupt accepted meanwhile."
  },
  {
   "property": "C24",
   "status": "proved",
   "theorems": [
    "Z80.C24_refused",
    "Z80.C24_accepted",
    "Z80.C24_iff",
    "Z80.C24_next"
   ],
   "note": "For every host (any answers) and every CPU state, histories of any length."
  },
  {
   "property": "C25",
   "status": "proved",
   "theorems": [
    "Z80.C25_irq",
    "Z80.C25_next",
    "Z80.C25_executed",
    "Z80.C25_executed_mode0"
   ],
   "note": "State, memory and T-states after an accepted request in modes 0 (RST), 1 and 2, wait states included, and equality of irq with execute_next finding the request (64K RAM with arbitrary devices). C25_executed, C25_executed_mode0: any host, accesses in order and all getters afterwards; in mode 0 any byte from the acknowledge."
  },
  {
   "property": "C26",
   "status": "proved",
   "theorems": [
    "Z80.C26_nmi",
    "Z80.C26_calls"
   ],
   "note": "Acceptance condition, effects and T-states on 64K RAM with arbitrary devices; calls and target on any host."
  },
  {
   "property": "C27",
   "status": "proved",
   "theorems": [
    "Z80.C27_after_ei",
    "Z80.C27_next_instruction",
    "Z80.C27_run"
   ],
   "note": "For every host (any answers) and every CPU state, histories of any length."
  },
  {
   "property": "C28",
   "status": "proved",
   "theorems": [
    "Z80.C28_instruction",
    "Z80.C28_irq",
    "Z80.C28_nmi",
    "Z80.C28_invariant",
    "Z80.C28_from_reset",
    "Z80.C28_nmi_retn"
   ],
   "note": "For every host (any answers) and every CPU state, histories of any length."
  },
  {
   "property": "C29",
   "status": "proved",
   "theorems": [
    "Z80.C29_halt",
    "Z80.C29_step",
    "Z80.C29_steps",
    "Z80.C29_time",
    "Z80.C29_return"
   ],
   "note": "HALT and the halted steps for any number of steps on any host; T-states and memory on 64K RAM with arbitrary devices; return from a handler by RET, RET cc, RETN, RETI continues after HALT."
  },
  {
   "property": "C30",
   "status": "partial",
   "theorems": [
    "Z80.C30_halt_excludes_pending_partial",
    "Z80.C30_reset",
    "Z80.C30_without_limit",
    "Z80.C30_refuted",
    "Z80.C30_refuted_prefix"
   ],
   "note": "Proved for every history under the two host conditions NoEi and NoTakeBack, and without conditions for all methods but execute_with_limit; false in general, witnesses C30_refuted and C30_refuted_prefix"
  },
  {
   "property": "C31",
   "status": "partial",
   "theorems": [
    "Z80.C31_limit_refines_next_partial",
    "Z80.C31_limit_refines_next_halted_partial",
    "Z80.C31_bound",
    "Z80.C31_refuted",
    "Z80.C31_refuted_halted",
    "Z80.C31_limit_is_rounds_partial"
   ],
   "note": "With neither exception an equivalence with rounds of execute_next (C31_limit_is_rounds_partial; the query that wakes a halted CPU is doubled); false in general, witnesses C31_refuted and C31_refuted_halted"
  },
  {
   "property": "C32",
   "status": "proved",
   "theorems": [
    "Z80.C32_reasons",
    "Z80.C32_reasons_single",
    "Z80.C32_limit_already_reached"
   ],
   "note": "All runs of execute_with_limit, execute_next, execute_instruction and irq"
  },
  {
   "property": "C33",
   "status": "proved",
   "theorems": [
    "Z80.C33_execute_next",
    "Z80.C33_execute_instruction",
    "Z80.C33_irq",
    "Z80.C33_silenced"
   ],
   "note": "All hosts: runs that differ only in requested breaks make the same calls and reach the same state; the break returned is the one requested."
  },
  {
   "property": "C34",
   "status": "proved",
   "theorems": [
    "Z80.C34_execute_instruction",
    "Z80.C34_execute_next",
    "Z80.C34_irq",
    "Z80.C34_nmi",
    "Z80.C34_program",
    "Z80.C34_scf_ccf",
    "Z80.C34_store_a",
    "Z80.C34_store_a_zilog",
    "Z80.C34_out_c_0",
    "Z80.C34_out_c_0_bytes",
    "Z80.C34_ld_a_ir",
    "Z80.C34_ed_alike"
   ],
   "note": "On any host and for any two of NMOS, CMOS and BM1: execute_instruction, execute_next, irq, nmi and any sequence of steps have the same host calls, results and corresponding states outside the listed instructions; for each listed instruction the exact difference (X/Y, MEMPTR, port byte, P/V and the extra interrupt query) is proved. Runs without a debugger."
  },
  {
   "property": "C35",
   "status": "proved",
   "theorems": [
    "Z80.C35_history",
    "Z80.C35_nmi",
    "Z80.C35_nmos",
    "Z80.C35_bm1",
    "Z80.C35_cmos",
    "Z80.C35_not_affecting",
    "Z80.C35_affecting",
    "Z80.C35_affecting_cb",
    "Z80.C35_affecting_ed"
   ],
   "note": "Any host; NMOS, BM1, CMOS; the table of flag-affecting instructions is exact (others leave F alone except POP AF and EX AF,AF'; each listed one changes F in some state). A DD/FD prefix byte counts as an instruction that does not affect the flags."
  },
  {
   "property": "C36",
   "status": "proved",
   "theorems": [
    "Z80.C36_method",
    "Z80.C36_methods",
    "Z80.C36_execute_with_limit",
    "Z80.C36_conversion",
    "Z80.C36_commute",
    "Z80.C36_commute_hyp",
    "Z80.C36_round_trip",
    "Z80.C36_by_cmos",
    "Z80.C36_goes_on",
    "Z80.C36_wrap",
    "Z80.C36_into",
    "Z80.C36_is",
    "Z80.C36_with_tag",
    "Z80.C36_tags"
   ],
   "note": "All methods of Z80Any against the wrapped CPU, also for sequences of calls; conversions, wrapping, unwrapping, tags. Formatting with Debug is not modelled."
  },
  {
   "property": "C37",
   "status": "proved",
   "theorems": [
    "Z80.C37_execute_next",
    "Z80.C37_execute_instruction",
    "Z80.C37_irq",
    "Z80.C37_at_most_once",
    "Z80.C37_at_most_once_instruction"
   ],
   "note": "All hosts: erasing debugger calls from a run with a debugger gives exactly the runs without; at most one record per call."
  },
  {
   "property": "C38",
   "status": "proved",
   "theorems": [
    "Z80.C38_execute_next",
    "Z80.C38_ram",
    "Z80.C38_halted",
    "Z80.C38_fits",
    "Z80.C38_fits_instruction",
    "Z80.C38_fits_irq"
   ],
   "note": "All hosts and states; lengths from the independent opcode table in Verif/Spec/Length.lean. C38_ram is the statement over plain memory. Where the following instruction starts is part of Describes via the length; see C44 for PC after execution."
  },
  {
   "property": "C39",
   "status": "proved",
   "theorems": [
    "Z80.Disasm.C39_disasm_memory",
    "Z80.Disasm.C39_any",
    "Z80.Disasm.C39_once",
    "Z80.Disasm.C39_inside",
    "Z80.Disasm.C39_listing_unique"
   ],
   "note": "For every slice, start address and callback: the loop ends (bound 2·len+1 iterations), the records handed over are exactly the listing of the bytes (relation Spec.Listing), up to the first callback error; Z80Any behaves as NMOS."
  },
  {
   "property": "C40",
   "status": "proved",
   "theorems": [
    "Z80.Serde.C40_round_trip_any",
    "Z80.Serde.C40_convert",
    "Z80.Serde.C40_round_trip",
    "Z80.Serde.C40_map_any",
    "Z80.Serde.C40_map",
    "Z80.Serde.C40_order",
    "Z80.Serde.C40_order_cpu",
    "Z80.Serde.C40_duplicate",
    "Z80.Serde.C40_unknown",
    "Z80.Serde.C40_missing",
    "Z80.Serde.C40_default",
    "Z80.Serde.C40_default_any",
    "Z80.Serde.C40_legacy",
    "Z80.Serde.C40_legacy_unknown",
    "Z80.Serde.C40_length",
    "Z80.Serde.C40_length_any",
    "Z80.Serde.C40_no_panic",
    "Z80.Serde.C40_pair_int",
    "Z80.Serde.C40_pair_seq",
    "Z80.Serde.C40_pair_hex"
   ],
   "note": "Formats are value trees with three properties; serde_derive behaviour assumed as documented. Round trips for every state and format, complete characterisation of the maps accepted, order and alias independence, exact errors for duplicate, unknown and missing fields, defaults, legacy sequences, no panic."
  },
  {
   "property": "C41",
   "status": "proved",
   "theorems": [
    "Z80.C41_execute_instruction",
    "Z80.C41_execute_next",
    "Z80.C41_bit"
   ],
   "note": "Table of MEMPTR values for every instruction, interrupt and halted step, on any host; X/Y of BIT n,(HL). NMI leaves MEMPTR unchanged in the code, and the published rules do not mention it."
  },
  {
   "property": "C42",
   "status": "proved",
   "theorems": [
    "Z80.C42_counter",
    "Z80.C42_timestamps",
    "Z80.C42_limit",
    "Z80.C42_no_wrap",
    "Z80.C42_counter_signed",
    "Z80.C42_limit_signed",
    "Z80.C42_timestamps_signed"
   ],
   "note": "Any bus and any sequence of programs: the counter after a run is the start value plus the documented lengths of the cycles reported, wrapping as in TsCounter; timestamps handed to the host, limit checks, absence of wrapping below the limit; unsigned and signed counters."
  },
  {
   "property": "C43",
   "status": "proved",
   "theorems": [
    "Z80.C43_execute_instruction",
    "Z80.C43_execute_next",
    "Z80.C43_irq",
    "Z80.C43_nmi",
    "Z80.C43_ram",
    "Z80.C43_ram_all"
   ],
   "note": "Exact list of written addresses for every run on any host (execute_instruction, execute_next, irq, nmi); frame on RAM hosts."
  },
  {
   "property": "C44",
   "status": "proved",
   "theorems": [
    "Z80.C44_execute_next",
    "Z80.C44_execute_instruction",
    "Z80.C44_nmi",
    "Z80.C44_irq",
    "Z80.C44_history"
   ],
   "note": "For a TsCounter clock of any width, 64K RAM, arbitrary devices, all flavours with a FlavourSpec instance (NMOS, CMOS, BM1), with and without debugger, executions of any length."
  },
  {
   "property": "C45",
   "status": "proved",
   "theorems": [
    "Z80.C45_execute_next",
    "Z80.C45_execute_instruction",
    "Z80.C45_irq",
    "Z80.C45_nmi",
    "Z80.C45_runs",
    "Z80.C45_stamps_limit",
    "Z80.C45_stamps_next",
    "Z80.C45_stamps_nmi"
   ],
   "note": "Equality of programs of host calls (debugger calls erased) with the calls of the specified bus cycle tree. C45_stamps_*: every access carries the timestamp given directly before, also within execute_with_limit."
  },
  {
   "property": "C46",
   "status": "proved",
   "theorems": [
    "Z80.C46_no_unreachable",
    "Z80.C46_fields",
    "Z80.C46_round_trips",
    "Z80.C46_parse_exact",
    "Z80.C46_is_satisfied"
   ],
   "note": "All bytes by complete tables, operands by cases."
  },
  {
   "property": "C47",
   "status": "proved",
   "theorems": [
    "Z80.C47_execute_next",
    "Z80.C47_execute_instruction",
    "Z80.C47_irq",
    "Z80.C47_disasm_memory",
    "Z80.C47_ram"
   ],
   "note": "Any host, any prefix, opcode and operand bytes, against an independent assembler syntax (Spec/Asm)."
  },
  {
   "property": "C48",
   "status": "proved",
   "theorems": [
    "Z80.C48_execute_next",
    "Z80.C48_execute_instruction",
    "Z80.C48_irq",
    "Z80.C48_columns",
    "Z80.C48_args",
    "Z80.C48_arbitrary",
    "Z80.Disasm.C48_write_text",
    "Z80.Disasm.C48_print_text"
   ],
   "note": "Every delivered record in five formats against Spec/Text; C48_arbitrary shows that records built by the user may fail to format."
  },
  {
   "property": "C49",
   "status": "proved",
   "theorems": [
    "Z80.C49_progress",
    "Z80.C49_laps",
    "Z80.C49_returns",
    "Z80.C49_returns_signed",
    "Z80.C49_refuted_overflow"
   ],
   "note": "Every host: laps of 4 to 23 T-states. Counter hosts of any width, signed and unsigned: returns, with bounded overshoot. C49_refuted_overflow shows the condition on the limit is needed."
  },
  {
   "property": "C50",
   "status": "proved",
   "theorems": [
    "Z80.C50_groups",
    "Z80.C50_transparent",
    "Z80.C50_nested",
    "Z80.C50_capture",
    "Z80.C50_read_debug",
    "Z80.C50_without_read_debug",
    "Z80.C50_read_debug_seen",
    "Z80.C50_left_out",
    "Z80.C50_no_devices",
    "Z80.C50_plain_memory",
    "Z80.C50_slice"
   ],
   "note": "any wrapper and host, any call of the CPU; the forwarding of associated types is a matter of typing and not modelled"
  },
  {
   "property": "C51",
   "status": "proved",
   "theorems": [
    "Z80.C51_two_slices",
    "Z80.C51_slices",
    "Z80.C51_counter",
    "Z80.C51_refuted_ei",
    "Z80.C51_refuted_take_back"
   ],
   "note": "any host whose limit test has no effect; the two exceptions named in the statement are refuted by witnesses"
  },
  {
   "property": "C52",
   "status": "proved",
   "theorems": [
    "Z80.C52_step",
    "Z80.C52_interrupted",
    "Z80.C52_handled",
    "Z80.C52_ram",
    "Z80.C52_ram_handled",
    "Z80.C52_copy"
   ],
   "note": "Any host that ignores the time and what handlers change (C52_ram: 64K memory with devices); steps of both runs in lock step; mode 1 and 2 acceptance plus RET/RETI/RETN; LDIR/LDDR as a corollary"
  },
  {
   "property": "C53",
   "status": "proved",
   "theorems": [
    "Z80.C53_execute_instruction",
    "Z80.C53_execute_next",
    "Z80.C53_irq",
    "Z80.C53_nmi",
    "Z80.C53_exact",
    "Z80.C53_exact_cb",
    "Z80.C53_exact_ed"
   ],
   "note": "Register frame for every instruction, step and interrupt on any host. PC, MEMPTR and the low bits of R have properties of their own (C54, C41, C11). Exactness of the lists is shown for unprefixed, DD/FD, CB and ED instructions on NMOS."
  },
  {
   "property": "C54",
   "status": "proved",
   "theorems": [
    "Z80.C54_execute_instruction",
    "Z80.C54_execute_next",
    "Z80.C54_irq",
    "Z80.C54_nmi",
    "Z80.C54_straight"
   ],
   "note": "Exact PC for every instruction, step and interrupt on any host, as a function of the state and of what was read."
  },
  {
   "property": "C55",
   "status": "proved",
   "theorems": [
    "Z80.Ral.C55_map",
    "Z80.Ral.C55_new",
    "Z80.Ral.C55_word",
    "Z80.Ral.C55_rom",
    "Z80.Ral.C55_attach_all"
   ],
   "note": "The raw pointer names the allocation it points into; reading through one to an allocation that is gone, or past its end, is an error in the model, and proved not to happen."
  },
  {
   "property": "C56",
   "status": "proved",
   "theorems": [
    "Z80.Ral.C56_end",
    "Z80.Ral.C56_ctc",
    "Z80.Ral.C56_pio",
    "Z80.Ral.C56_nested",
    "Z80.Ral.C56_vector",
    "Z80.Ral.C56_reset",
    "Z80.Ral.C56_pending",
    "Z80.Ral.C56_board",
    "Z80.Ral.C56_ctc_vectors",
    "Z80.Ral.C56_pio_vectors"
   ],
   "note": "for chains of any length; concrete chain of the computer in C56_board; vectors written by programs in C56_ctc_vectors and C56_pio_vectors"
  },
  {
   "property": "C57",
   "status": "proved",
   "theorems": [
    "Z80.Ral.C57_start",
    "Z80.Ral.C57_runs",
    "Z80.Ral.C57_lazy",
    "Z80.Ral.C57_read",
    "Z80.Ral.C57_retime",
    "Z80.Ral.C57_second",
    "Z80.Ral.C57_total",
    "Z80.Ral.C57_active"
   ],
   "note": "for any triggers that do not panic; a prescaler changed without a reset is not covered"
  },
  {
   "property": "C58",
   "status": "partial",
   "theorems": [
    "Z80.Ral.C58_on_time_partial",
    "Z80.Ral.C58_looked",
    "Z80.Ral.C58_refuted_late",
    "Z80.Ral.C58_refuted_panic",
    "Z80.Ral.C58_refuted_purge",
    "Z80.Ral.C58_refuted_stale"
   ],
   "note": "Proved for every timer that the chip means to look at in time, which each look establishes; false for timers started between two looks and for counters started right after the start; witnesses C58_refuted_late, C58_refuted_panic, C58_refuted_purge, C58_refuted_stale"
  },
  {
   "property": "C59",
   "status": "proved",
   "theorems": [
    "Z80.Ral.C59_start",
    "Z80.Ral.C59_counts",
    "Z80.Ral.C59_all",
    "Z80.Ral.C59_clock",
    "Z80.Ral.C59_chained",
    "Z80.Ral.C59_second",
    "Z80.Ral.C59_cascade",
    "Z80.Ral.C59_timer_cascade",
    "Z80.Ral.C59_new"
   ],
   "note": "for looks at one or two chained channels; setting the clock back presupposes that the channel has been looked at since (C59_second)"
  },
  {
   "property": "C60",
   "status": "proved",
   "theorems": [
    "Z80.Ral.C60_input",
    "Z80.Ral.C60_once",
    "Z80.Ral.C60_input_reset",
    "Z80.Ral.C60_input_irq",
    "Z80.Ral.C60_output",
    "Z80.Ral.C60_output_irq",
    "Z80.Ral.C60_output_start",
    "Z80.Ral.C60_behind",
    "Z80.Ral.C60_board",
    "Z80.Ral.C60_overrun"
   ],
   "note": "for channel A as an input and channel B as an output, as the computer has them; selecting a mode again drops a byte and is excluded"
  },
  {
   "property": "C61",
   "status": "proved",
   "theorems": [
    "Z80.Ral.C61_prompt",
    "Z80.Ral.C61_pace",
    "Z80.Ral.C61_frames",
    "Z80.Ral.C61_default",
    "Z80.Ral.C61_fast"
   ],
   "note": "the bus of a device that panics falls silent instead of ending the program; the runner itself never panics; a clock above 2^31 Hz that clock_is_valid accepts makes the first frame panic (C61_fast)"
  },
  {
   "property": "C62",
   "status": "partial",
   "theorems": [
    "Z80.Ral.C62_new_partial",
    "Z80.Ral.C62_default_partial",
    "Z80.Ral.C62_refuted_pulses",
    "Z80.Ral.C62_refuted_mode",
    "Z80.Ral.C62_refuted_slow",
    "Z80.Ral.C62_refuted_wait"
   ],
   "note": "False of all programs (C62_refuted_pulses, C62_refuted_mode, C62_refuted_slow, C62_refuted_wait). Proved: if the program never lets more pulses pile up than the collectors have cells for, never selects unimplemented modes and never tells a timer behind a collector (channels 1 and 3) to wait for its trigger, nothing panics, for any number of frames, resets and NMIs; timers of channels 0 and 2 may wait for the external clock."
  },
  {
   "property": "C63",
   "status": "proved",
   "theorems": [
    "Z80.C63_named",
    "Z80.C63_unique",
    "Z80.C63_match",
    "Z80.C63_match_rst",
    "Z80.C63_build",
    "Z80.C63_execute_instruction",
    "Z80.C63_execute_next"
   ],
   "note": "All bytes, conditions, states, hosts and runs; interrupts accepted in mode 2 are recorded as a jump and excepted."
  },
  {
   "property": "C64",
   "status": "partial",
   "theorems": [
    "Z80.Ral.C64_run_until_brkpt_partial",
    "Z80.Ral.C64_frame_partial",
    "Z80.Ral.C64_returns_partial",
    "Z80.Ral.C64_refuted_stuck",
    "Z80.Ral.C64_refuted_late"
   ],
   "note": "False of the code in two ways (C64_refuted_stuck, C64_refuted_late). Proved for all programs, devices and sorted lists: no break point is passed, an index returned is that of PC, None means that the frame has passed; with 0xFFFF among the break points it returns within a frame."
  },
  {
   "property": "C65",
   "status": "partial",
   "theorems": [
    "Z80.Ral.C65_debug_step_partial",
    "Z80.Ral.C65_debug_runto_int_partial",
    "Z80.Ral.C65_int_returns",
    "Z80.Ral.C65_debug_runto_ret",
    "Z80.Ral.C65_ret_returns",
    "Z80.Ral.C65_transparent",
    "Z80.Ral.C65_refuted_pc",
    "Z80.Ral.C65_refuted_mode0",
    "Z80.Ral.C65_refuted_stale"
   ],
   "note": "debug_step is one instruction or interrupt and never panics; debug_runto_int and debug_runto_ret stop at the first interrupt or return, terminate and do not disturb. Interrupts in mode 0 are excepted (C65_refuted_mode0, C65_refuted_stale) and the address shown for a prefix within a row of prefixes is wrong (C65_refuted_pc)."
  },
  {
   "property": "C66",
   "status": "partial",
   "theorems": [
    "Z80.Ral.C66_debug_preview_partial",
    "Z80.Ral.C66_prefixed_partial",
    "Z80.Ral.C66_computer_partial",
    "Z80.Ral.C66_refuted_long",
    "Z80.Ral.C66_refuted_prefixes",
    "Z80.Ral.C66_refuted_banks"
   ],
   "note": "False of the code for an ED instruction of four bytes after a useless prefix, a case the documentation does not except (C66_refuted_long). Proved for all other states, memories and devices, with the documented exceptions as hypotheses: the preview has the address, bytes, prefix, name and operands of the record of the instruction executed next."
  },
  {
   "property": "C67",
   "status": "proved",
   "theorems": [
    "Z80.C67_execute_instruction",
    "Z80.C67_execute_next",
    "Z80.C67_irq",
    "Z80.C67_nmi",
    "Z80.C67_program",
    "Z80.C67_shows",
    "Z80.C67_push_af",
    "Z80.C67_pop_af",
    "Z80.C67_ram_step",
    "Z80.C67_ram"
   ],
   "note": "Undocumented state (MEMPTR, flag memory, bits 3/5 of F and F') never influences host calls or documented registers, for all states, hosts, flavours and programs, except through PUSH AF (and OUT (C),0, LD A,I/R between flavours). C67_ram follows programs that save flags on the stack."
  },
  {
   "property": "C68",
   "status": "partial",
   "theorems": [
    "Z80.Ral.C68_run_for",
    "Z80.Ral.C68_run_to_completion_partial",
    "Z80.Ral.C68_run_irq",
    "Z80.Ral.C68_refuted_ret",
    "Z80.Ral.C68_refuted_call"
   ],
   "note": "Proved for a first step without an interrupt of mode 2 or 0; refuted with concrete witnesses where the handler's address is taken for an opcode. run_for and DebugRunIrq are characterised without exception."
  },
  {
   "property": "C69",
   "status": "proved",
   "theorems": [
    "Z80.Ral.C69_session",
    "Z80.Ral.C69_frames",
    "Z80.Ral.C69_default"
   ],
   "note": "Any session of the runner and the debugger (steps, runs to breakpoints, interrupts and returns, frames, NMIs) on any prompt device keeps the clock within a frame and the unfinished instruction of the limit, accounts for every T-state, and ends exactly one frame per frame time that passed."
  },
  {
   "property": "C70",
   "status": "partial",
   "theorems": [
    "Z80.Ral.C70_wrap_partial",
    "Z80.Ral.C70_refuted"
   ],
   "note": "false of all states: C70_refuted; proved if no stored time is before the new start of the clock (Settled)"
  },
  {
   "property": "C71",
   "status": "proved",
   "theorems": [
    "Z80.C71_selection_ascending",
    "Z80.C71_selection_descending",
    "Z80.C71_insertion_ascending",
    "Z80.C71_insertion_descending"
   ],
   "note": "Selection and insertion sort, both directions, from reset to HALT with execute_next. Quick sort, shuffle and mul_seed of the same program are not covered. The T-state bounds are those of the analysis; the upper bounds exceed the limits the test uses, which hold for its six arrays."
  },
  {
   "property": "C72",
   "status": "proved",
   "theorems": [
    "Z80.C72_fibonacci",
    "Z80.C72_documented"
   ],
   "note": "The example program of the documentation for every n: result, T-states, nothing else changed."
  },
  {
   "property": "C73",
   "status": "proved",
   "theorems": [
    "Z80.C73_multiplies",
    "Z80.C73_prints"
   ],
   "note": "The multiplication and the decimal printing of the test program for all pairs of numbers: product, text, nothing else changed."
  },
  {
   "property": "C74",
   "status": "proved",
   "theorems": [
    "Z80.C74_sum",
    "Z80.C74_difference"
   ],
   "note": "Sum and difference, binary and packed decimal, any length."
  },
  {
   "property": "C75",
   "status": "proved",
   "theorems": [
    "Z80.C75_execute_next",
    "Z80.C75_execute_instruction",
    "Z80.C75_prefixes"
   ],
   "note": "Any number of steps before any host, and single instructions."
  },
  {
   "property": "C76",
   "status": "proved",
   "theorems": [
    "Z80.Ral.Screen.C76_line",
    "Z80.Ral.Screen.C76_lines",
    "Z80.Ral.Screen.C76_preview",
    "Z80.Ral.Screen.C76_complete",
    "Z80.Ral.Screen.C76_execute_next"
   ],
   "note": "Both layouts, the preview, and injectivity of what is shown. Printing to the terminal is not modelled."
  },
  {
   "property": "C77",
   "status": "proved",
   "theorems": [
    "Z80.C77_alike",
    "Z80.C77_shift",
    "Z80.C77_width",
    "Z80.C77_signed",
    "Z80.C77_jobs",
    "Z80.C77_frames"
   ],
   "note": "Hosts whose clocks correspond cannot be told apart, for any sequence of execute_next, execute_instruction, irq, nmi and (with limits reached at the same time) execute_with_limit; counters shifted, narrowed, signed, and frame clocks as instances."
  },
  {
   "property": "C78",
   "status": "proved",
   "theorems": [
    "Z80.Ral.Runner.C78_proper",
    "Z80.Ral.Runner.C78_messages"
   ],
   "note": "C78_proper: the log of the thread passes the monitor; C78_messages: messages are taken in order, and where the thread ends."
  },
  {
   "property": "C79",
   "status": "partial",
   "theorems": [
    "Z80.Ral.Runner.C79_ends_partial",
    "Z80.Ral.Runner.C79_default_partial",
    "Z80.Ral.Runner.C79_refuted_presses",
    "Z80.Ral.Runner.C79_refuted_hang"
   ],
   "note": "False in full: C79_refuted_presses (too many presses of the NMI button while the debugger waits make a later frame panic), C79_refuted_hang (DebugCompletion over a call that halts at 0xFFFF never returns). C79_ends_partial, C79_default_partial: true without these; missing are more presses and DebugCompletion inside the debugger."
  },
  {
   "property": "C80",
   "status": "proved",
   "theorems": [
    "Z80.C80_columns",
    "Z80.C80_records",
    "Z80.C80_executed",
    "Z80.C80_canon",
    "Z80.C80_ed",
    "Z80.C80_xcb",
    "Z80.C80_ld"
   ],
   "note": "Text to instruction and back, as an equivalence, on the records of any execution and on listings; that duplicates do the same is stated on the specification machine, which the model refines (C44)"
  },
  {
   "property": "C81",
   "status": "proved",
   "theorems": [
    "Z80.C81_skip",
    "Z80.C81_limit",
    "Z80.C81_next"
   ],
   "note": "Skipping j halted steps in execute_with_limit is an equivalence of returned results, for any later behaviour of the host; closed form up to the limit; execute_next with and without debugger. The clock is TsCounter of any width."
  },
  {
   "property": "C82",
   "status": "partial",
   "theorems": [
    "Z80.C82_executed",
    "Z80.C82_halt_partial",
    "Z80.C82_same_partial",
    "Z80.C82_refuted",
    "Z80.C82_refuted_stuck"
   ],
   "note": "True of execute_instruction with HALT (C82_executed). False of halt(): C82_refuted (an interrupt returns one byte further), C82_refuted_stuck (with a prefix or EI pending no interrupt is ever accepted). C82_halt_partial, C82_same_partial: what halt() does when nothing is pending."
  },
  {
   "property": "C83",
   "status": "partial",
   "theorems": [
    "Z80.C83_quick_ascending_partial",
    "Z80.C83_quick_descending_partial",
    "Z80.C83_beyond_partial",
    "Z80.C83_ordered_partial",
    "Z80.C83_refuted_ascending",
    "Z80.C83_refuted_descending"
   ],
   "note": "False in full: C83_refuted_ascending and C83_refuted_descending give arrays for which the recursion leaves the stack and memory outside is overwritten. Proved: either the routine sorts, changing only array and stack, or it reaches the point where it calls itself with the stack used up; for arrays in order already it always finishes and leaves them alone (C83_ordered_partial). Missing: what happens after that point, and time bounds."
  },
  {
   "property": "C84",
   "status": "proved",
   "theorems": [
    "Z80.C84_shuffle",
    "Z80.C84_random",
    "Z80.C84_period",
    "Z80.C84_determined",
    "Z80.C84_same",
    "Z80.C84_sorted"
   ],
   "note": "Proved in full: permutation, order of the array, seed left, confinement, dependence on the seed alone, generator with full period."
  },
  {
   "property": "C85",
   "status": "proved",
   "theorems": [
    "Z80.Ral.Terminal.C85_decodes",
    "Z80.Ral.Terminal.C85_unambiguous",
    "Z80.Ral.Terminal.C85_performs",
    "Z80.Ral.Terminal.C85_stream",
    "Z80.Ral.Terminal.C85_no_panic",
    "Z80.Ral.Terminal.C85_reset",
    "Z80.Ral.Terminal.C85_echo",
    "Z80.Ral.Terminal.C85_typed",
    "Z80.Ral.Terminal.C85_menu",
    "Z80.Ral.Terminal.C85_keys",
    "Z80.Ral.Terminal.C85_leaves",
    "Z80.Ral.Terminal.C85_ends",
    "Z80.Ral.Terminal.C85_shown"
   ],
   "note": "All clauses proved for every window whose cursor position is an i32 below the maximum."
  },
  {
   "property": "C86",
   "status": "partial",
   "theorems": [
    "Z80.Ral.Terminal.C86_clock_partial",
    "Z80.Ral.Terminal.C86_refuted",
    "Z80.Ral.Terminal.C86_default"
   ],
   "note": "False in full: 1_000 * clock overflows before the check (C86_refuted). Proved for all numbers whose number of Hz fits 32 bits."
  },
  {
   "property": "C87",
   "status": "proved",
   "theorems": [
    "Z80.Embedded.C87_main",
    "Z80.Embedded.C87_embedded",
    "Z80.Embedded.C87_zero"
   ],
   "note": "main of the embedded example, any number but 0 and any CPU: never a panic, never a read out of bounds, and it ends; with 0 an assertion fails"
  },
  {
   "property": "C88",
   "status": "proved",
   "theorems": [
    "Z80.Kernel.C88_frame",
    "Z80.Kernel.C88_none",
    "Z80.Kernel.C88_input_full",
    "Z80.Kernel.C88_input_empty",
    "Z80.Kernel.C88_output_none",
    "Z80.Kernel.C88_output_some",
    "Z80.Kernel.C88_nmi",
    "Z80.Kernel.C88_forward",
    "Z80.Kernel.C88_rom",
    "Z80.Kernel.C88_room",
    "Z80.Kernel.C88_key",
    "Z80.Kernel.C88_print",
    "Z80.Kernel.C88_witness"
   ],
   "note": "The first counter's interrupt, the empty interrupts, a character received, a character sent, a refused non-maskable interrupt, RST 18h/20h/30h, for every state. ROM and RAM are one 64K memory; the routines are shown to write only to the stack and their variables."
  },
  {
   "property": "C89",
   "status": "proved",
   "theorems": [
    "Z80.Kernel.C89_none",
    "Z80.Kernel.C89_one",
    "Z80.Kernel.C89_two",
    "Z80.Kernel.C89_received",
    "Z80.Kernel.C89_rom",
    "Z80.Kernel.C89_witness"
   ],
   "note": "RST 08h when characters wait, and when none waits and the caller does not want to wait, for every state; the interrupt routine adds at the end. Waiting in HALT and interrupts during the call are not covered."
  },
  {
   "property": "C90",
   "status": "proved",
   "theorems": [
    "Z80.Kernel.C90_full",
    "Z80.Kernel.C90_later",
    "Z80.Kernel.C90_now",
    "Z80.Kernel.C90_rom",
    "Z80.Kernel.C90_witness"
   ],
   "note": "RST 10h when the device is free, when it is busy and the buffer is empty, and when the buffer is full and the caller does not want to wait, for every state. Waiting in HALT and interrupts during the call are not covered."
  }
 ]
}
