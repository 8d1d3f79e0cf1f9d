# Design of the formal model of rust-z80emu

## 1. What is verified and what is trusted

* Source under study: `/repo` (rust-z80emu), read as text only, never built or run here.
* Model and proofs: Lean 4.33.0, project `/verif/lean`, library `Verif`.
* Trusted base
  1. the Lean kernel;
  2. the standard axioms `propext`, `Classical.choice`, `Quot.sound` (every theorem
     depends on a subset of these; no own axioms, no `sorry`, no `native_decide`,
     no `bv_decide`);
  3. the transcription of the Rust text into Lean, which is by hand. Every definition
     cites the file and lines it models. This is the only informal link.
  4. the small specification modules (`Verif/Spec/*`), which say what "correct" means.
* Axioms by theorem: `AXIOMS.txt` lists, for every theorem named in `MANIFEST.json`, the
  axioms it depends on as printed by Lean (generated, not written by hand).
* Meta code: `Verif/Proofs/Walk.lean` defines a tactic. It only chooses which lemma to apply
  to a goal; the kernel checks the resulting proofs, so it is not part of the trusted base.
* What is modelled and what is not: section 5.

## 2. Architecture of the model

* **Bytes and words** are `BitVec 8` / `BitVec 16`; wrap-around is built in.
* **Register pair** (`[u8;2]` in Rust) is a structure of two bytes.
* **Flavour** (trait) is a structure class over an arbitrary type, so the theorems also
  hold for user-written flavours; NMOS, CMOS, BM1 are instances.
* **Host** (traits `Clock`, `Io`, `Memory`, and the debug callback) is *not* a fixed
  machine. The CPU code is modelled as a tree of host requests (`Prog`, a free monad):
  each node is one call of a host method with its arguments, each edge is one possible
  answer. The order of the nodes is the order of the calls in Rust, including evaluation
  order of call arguments. Theorems stated over trees, or over the
  weakest-precondition predicate of trees (all answers possible), hold for every host,
  deterministic or not, with or without interior mutability. A concrete host is a
  handler that interprets the requests over its own state: RAM + T-state counter.
* **CPU code** is written in a state monad over `Prog`; the state has the `Z80` struct
  and the Rust local variables `flags`, `pc`, `prefix` of `execute_instruction`
  kept separate, since Rust writes them back only at the end.
* **Dispatch** mirrors `match_instruction!`: byte → mnemonic arm → arm body that parses
  the sub-fields of the byte.
* **Panics and undefined behaviour**: `unreachable!`/`unreachable_unchecked` arms are an
  explicit exit value `ub`, proved unreachable.
* **Loops**: `execute_with_limit` can run forever, so it is modelled with a fuel
  argument, and theorems hold for every fuel; the answer `none` means "still running".

## 3. Plan per property

| id | modelled | proof idea |
|----|----------|-----------|
| C01–C05, C07, C08 | `ops.rs`, `flags.rs` | flag bytes specified bit by bit with exact integer arithmetic; case-free bit-vector and `omega` reasoning, complete finite tables for one-byte functions; `Props/Executed` states the same for the executed instructions (operand reads and writes in order, all getters afterwards) from the bus-cycle refinement |
| C06 | `daa` | complete table over A and flags (kernel evaluation), lifted; BCD meaning stated with digits |
| C09, C10, C12 | `z80.rs`, `registers.rs` | structural |
| C11 | `R` handling, all instructions | weakest precondition: R delta = number of M1 events in the trace, induction over histories |
| C13 | the three tables, `parse.rs` | independent x-y-z decoder, complete tables |
| C14 | all arms | wp: exit ≠ ub |
| C15 | prefix chains | induction over the chain |
| C16, C17 | all arms | wp: ticks of trace = independent table + wait answers; tree induction for `TsCounter` |
| C18–C20, C25 | RAM host; any host in `Props/Transfer` | symbolic execution; bus-cycle refinement for any host |
| C21–C23 | RAM host, block instructions | induction over count |
| C24–C30 | interrupts, halt | wp and invariants over histories |
| C31, C32 | `execute_with_limit` | simulation by induction over fuel |
| C33 | output instructions | tree relation |
| C34–C36 | flavours, `Z80Any` | tree equality / relation between instances |
| C37, C38 | debug | tree relation with debug nodes erased; wp on records |
| C39 | `disasm.rs` | measure |
| C47 | mnemonics and operands of records | the same walk as for C38, with an independent assembler syntax |
| C48 | formatting of records | text as a function of address and bytes; widths by cases over instructions |
| C49 | `execute_with_limit` with a counter | laps between tests of the limit, bounds from C16; induction over laps |
| C50 | the forwarding macros as wrappers, default methods | induction over host calls; code without a debugger does not look at `read_debug` |
| C51 | `execute_with_limit` called repeatedly | it is a sequence of rounds (`Trip`), in both directions; rounds are cut and glued at tests of the limit by induction |
| C52 | `execute_next`, `irq`, returns, against programs and handlers | bus-cycle trees of related states are related (`Like`), so runs on hosts blind to the difference stay in lock step; induction over steps and interrupts |
| C53 | all of the instruction set, interrupts | table `Spec.changes` of what each decoded instruction may change; every end of its bus-cycle tree keeps the rest; lifted to every run on every host. Exactness by evaluating a complete table of opcodes on sample states |
| C54 | the same, for PC | table `Spec.pcAfter`, `Spec.pcStep`; `Spec.length` gives the end of instructions that do not jump |
| C55 | the memory of the example computer with its raw pointer, named allocations, unsafe word reads | invariant `Maps` between the boards and the memory map `Spec/RalMemory`, kept by every use; induction over sequences |
| C56 | the counter/timer and parallel port chips, for any triggers and connected devices; panics are `none` | `Daisy`: each device is a node of a list with a busy flag and request lines (`Spec/RalChain`), shown for the end of the chain and kept by putting either chip before a chain; induction over sequences of uses; the vectors after every write to a port |
| C57 | a channel of the counter/timer in timer mode, for any triggers | closed form of the count-down loop with times of zeros `zeros`, `nextZero` (`Spec/RalTimer`); invariant `Ticks`; induction over the times it is looked at. Changing the prescaler of a running timer without a reset is not covered |
| C58 (partial, refuted) | the chip with its cached time of the next look | invariant `Owes` (the interrupt is pending, or the timer gets to zero at `z` and the chip looks not later than that), kept by every use that neither accepts an interrupt nor writes to the channel; four concrete refutations of the full claim |
| C59 | a channel in counter mode, for any triggers that keep the contract `Feeds` (edges that wait up to a time); the two kinds of triggers of the computer | induction over the counting loop and over the looks; arithmetic of clock edges (`clockEdges`), the collector as a queue; composition of both channels by induction over the looks |
| C60 | the parallel ports with `PioInput` and `PioOutput`, for any stream and sink | streams and sinks that write down their bytes; handover as a machine (`hand`, `Spec/RalPio`); invariants `Hears`, `Sends` kept by every use of the chip; sublist of uses passed on by the counter/timer |
| C61 | the whole example computer: processor, `TClock`, bus, memory and devices, `FrameRunner` | `execute_with_limit` with any clock that adds up (C49) ends within 22 T-states of the limit; invariant `OnTime` (clock ahead of the limit by what is unfinished) kept by frames, resets and interrupts; induction over uses |
| C62 | the whole example computer (as for C61) | false of all programs, see 4.1. Specification `Behaves`: what is asked of the devices at every moment of a run (`watch`). Invariants `Safe` (every running timer was looked at not long before, a waiting timer has not missed an edge of the external clock since then, edges and pulses lie in the past) for each use of the devices, `Sound` with the memory map of C55; accesses carry the time of the clock (`Timely`, C45); induction over host calls, loop of a frame, uses of the computer |
| C63 | `opconsts`, `Condition`, `was_just_a_call`, `was_just_a_ret` (an index out of bounds is `none`) | the masks against the specified decoding over the complete byte table; `Called` and `Returned` are stated by data traffic, SP and PC. The record of a step is tied to the opcode executed by C38's lemmas and one more for the second byte of ED instructions, what instructions do to SP and PC is taken from C19, C53 and C54. Interrupts in mode 2 are excepted: they are recorded as a jump |
| C64 (partial, refuted) | `run_until_brkpt` for any search that keeps the promise of `binary_search` | invariant `Gap`: no break point between PC and the next one looked for; induction over the instructions; pace of `execute_next` (4 to 23 T-states) for termination |
| C65 (partial, refuted) | `debug_step`, `debug_runto_int`, `debug_runto_ret` | `Goes`: the four ways of an `execute_next` with its records and acknowledges (from C38); `Stepped` says what a step is, `LastRound` how a run ends; returns are recognised by C63 |
| C66 (partial, refuted) | `debug_preview`, `disasm_memory_once`, `read_debug` of the banked memory | the record of a step is described by the bytes in memory (C38) and its text by those bytes (C47); the listing of the disassembler is unique (C39), so its first entry is that record if it fits in four bytes. `Steady` calls leave the banks as they are (C55): then the processor reads what `read_debug` shows |
| C67 | the whole CPU, in pairs | both implementations refine the machine-cycle specification (C45); the specification's cycle trees of two states with equal documented parts agree up to that part in the final state (opcode tables split by case, no bound on anything); `drives_agree` carries this back to host calls. `PUSH AF`/`POP AF` by their explicit calls; programs in memory by induction over the steps with the set of addresses of saved flags |
| C68 (partial, refuted) | `run_for`, `run_to_completion`, `DebugRunIrq` of `thread.rs` | `C68_run_for` characterises the loop exactly; the parts are C63 (what was a call or return), C64 (break points) and C65 (steps), joined into one `Walk` through instructions, ends of frames and of seconds |
| C69 | the runner and the debugger together (`Cmd`, `obeyAll`) | invariant `Due` (clock ahead of the limit by less than a frame and what is unfinished) with the account `Accounted` of T-states and ended frames, kept by every command; `Tally`: any statement about the bus that survives its use and counts ends of frames, instantiated with a count kept by a device (`Counting`, which any device can be given: `withCount`); the shape of the runs is that of C64 and C65 |
| C70 (partial, refuted) | the devices of the example computer | simulation between the devices at times `ts` and the devices set back by `d` at times `ts - d`: channels (`Back`), announced times up to the moments at which they are reached (`Hints`), clocks and collected pulses (`Clocks`), the chip (`CtcBack`); any triggers and any devices behind the chip that have such a relation |
| C71 | the machine code of `/repo/tests/shuffle/shuffle.bin` running on the CPU (C44's machine) | symbolic execution: one lemma per instruction used (`Proofs/Routine`), composed into runs of the loops with invariants (sorted prefix, place of the least element so far, block being moved), then carried over to `execute_next` with C44; the array afterwards is a permutation of the array before |
| C72 | the example program of `/repo/src/lib.rs` 110-168 running on the CPU (C44's machine) | as C71: the loop invariant is that HL and DE hold two consecutive Fibonacci numbers modulo 65536; the number of rounds and of T-states is counted exactly |
| C73 | the multiplication and the decimal printing of `/repo/tests/shuffle/shuffle.bin` (0x23D, 0x20) running on the CPU (C44's machine), with bytes sent to a device | as C71, with runs that also record the bytes sent: the invariant of the multiplication is accumulator + shifted multiplicand times the bits left, that of the printing a number in packed decimal that is doubled bit by bit (DAA) and then written by RLD; the digits are those of Lean's `toString` |
| C74 | the loops every Z80 program uses for numbers of many bytes (LD A,(DE); ADC or SBC A,(HL); DAA; LD (DE),A; INC HL; INC DE; DJNZ) at any address, running on the CPU (C44's machine) | as C71: induction on the number of bytes, one byte by the arithmetic of ADC and SBC and, in decimal, by the complete table of C06 for DAA; the specification knows only numbers (little-endian, to the base 256 or 100) |
| C75 | `execute_next` any number of times and `execute_instruction`, any host | the trees of bus cycles of C45 with IX and IY exchanged are equal to the trees of the other prefix with the ends exchanged, instruction by instruction; lifted to every host by a wrapper that exchanges DD and FD in the first opcode of every call |
| C76 | the debugger's lines of the example computer (`examples/ral1243/src/debug.rs` 24-157) with any record right about itself (C47) and any CPU | the text is brought into the form 33 (or 24) characters of known width followed by columns of known width, so that each column is found at a computed place; that its title is there and nowhere else in the header is decided by the kernel; equality of the screens gives equality column by column |
| C77 | `execute_next`, `execute_instruction`, `irq`, `nmi` on two hosts with different clocks | the trees of bus cycles of C45 contain no timestamps; induction on the tree shows that corresponding hosts take the same branch of it and end in corresponding states; the counters are instances. `execute_with_limit` compares the clock with a limit and goes on: the same for its loop, by induction on the number of iterations, if the limits are reached at the same time; a clock that counts frames is the instance |
| C78 | the loops of the example computer's thread (`thread.rs` 76-215) with a list for the channel, noting what happens | a monitor (`Watch`) that knows only what happened before says what may happen next; induction on the messages with the correspondence of `nmi_request`, `header_lines`, `last_ts` and the state of the monitor (`Runs`, `Debugs`) |
| C79 (partial, refuted) | the same loops | invariant `Due` of C69 through the loops, with the presses of the button counted while the debugger waits; `Patient` excludes what makes the claim false |
| C80 | the records of C47 and their texts of C48 | names and numbers in operands are told apart by their characters, so texts tell patterns; the kernel checks over all 1446 opcodes (with prefixes) that mnemonic, pattern and the numbers in the opcode tell the opcode up to `canon`; operand bytes are read back from the operands |
| C81 | the halted loops of `execute_with_limit` and `execute_next`, `add_r`, `TsCounter` | induction on the number of steps; fuel monotonicity of C44's `run_le` for what happens afterwards |
| C82 (partial, refuted) | `halt`, `execute_instruction` with 0x76, `irq`, `nmi` | the closed form of HALT of C29 and of interrupts of C25 and C26; the stuck state is an invariant of the calls |
| C83 (partial, refuted) | the quick sort routines of `/repo/tests/shuffle/shuffle.bin` (0x18F, 0x1E6) running on the CPU (C44's machine) | as C71, with an invariant of the partition (elements passed by either pointer are on the right side of the pivot, each pointer has an element to stop at) and strong induction on the length of the part, for a stack of any depth; descending order is ascending order with indices counted from the end; the witness has the least element of each part in its middle, level by level |
| C84 | the shuffling routine and the random number generator of `/repo/tests/shuffle/shuffle.bin` (0x77, 0xA8) running on the CPU (C44's machine) | as C71: the generator's multiplication by 75 and its long division by 65537 are followed bit by bit (`Dividing`, `Divided`); its full period from 75 having order 65536 modulo the prime 65537 and a pigeonhole; the draws end because the seed 0 is met; the array after `i` turns is `insideOut r i`, whose inverse is given by recursion |
| C85 | the loop of `/repo/examples/terminal.rs` with any window | the reachable states are described by the beginning of a code that is pending (`Waits`); induction on the bytes; codes are told apart by their first byte, which gives uniqueness; for what is shown, a window that remembers what was done to it |
| C86 (partial, refuted) | the conversion and check of the frequency in `/repo/examples/terminal.rs` and `check_clock` | arithmetic; a witness that overflows |
| C87 | `main` of `/repo/examples/embedded/embedded.rs`; the host remembers if an index was out of bounds | calls in bounds are answered as by a RAM, so a run on a RAM whose trace is in bounds is a run on the array; the trace of each of the six instructions from C45; the result from C72 |
| C88 | the first 0x195 bytes of `/repo/examples/ral1243/rom/rom.bin`, executed by `execute_next` on 64K of RAM (the real ROM ignores writes; the routines write only to the stack, the counter and the character buffer) | symbolic execution of the specified machine with all registers followed except MEMPTR, R and Q; C44 takes it to `execute_next` and `nmi`; the counter by cases on the bytes that turn over. Not covered: another interrupt within the last two instructions of the routines for a character received and sent, a device that stops the emulation at the write of the character, `RST 28h`, `38h`, and an allowed non-maskable interrupt |
| C89 | the same bytes: `RST 08h` with its routine at 0x13E, and the interrupt routine of C88 | symbolic execution as for C88, with the exchange of the register sets; the two places where a character can wait, memory and device, are one list in the specification. Not covered: the caller waits in HALT (carry set, no character), interrupts requested during the call |
| C90 | the same bytes: `RST 10h` with its routine at 0x178 | as C89; the result is tied to the interrupt routine of C88 by the specification `sent`. Not covered: the caller waits in HALT (carry reset, buffer full), interrupts requested during the call, a device that stops the emulation at the write |
| C40 | `serde.rs` visitors | list of key/value pairs, permutations |
| C41, C43, C44 | all arms | refinement of an independent specification |
| C42 | `TsCounter` | arithmetic |

Status, partial results and refuted statements are recorded in section 4 as the proofs
are completed; exact theorem names are in `MANIFEST.json`.

## 4. Status

Every property has theorems; `MANIFEST.json` names them and says in one line what each
claim covers. All are `proved` but those of section 4.1, which are false of the code as stated.

### 4.1 Properties that are false of the code

* **C31** (*`execute_with_limit` refines repeated `execute_next`*). Two ways to tell them apart:
  1. `C31_refuted`: an interrupt in mode 0 delivers the opcode `EI`. `execute_with_limit` keeps
     the after-EI mark while later instructions run, because its inner loop never clears
     `last_ei` on ordinary instructions; `execute_next` clears it with each instruction.
  2. `C31_refuted_halted`: a halted CPU in `execute_with_limit` asks `is_irq` twice when it wakes
     up. A host that takes the request back between the two calls makes the CPU go on executing
     while it is marked as halted.
  Proved instead: `C31_limit_refines_next_partial` (running CPU, no device puts `EI` on the bus:
  same calls, same results, same states as the plain loop), and
  `C31_limit_refines_next_halted_partial` (halted CPU: the same up to the doubled query).
  `C31_limit_is_rounds_partial` says both in one equivalence: with neither exception, what
  `execute_with_limit` does is exactly a sequence of rounds of `execute_next`, the query that wakes a
  halted CPU being doubled.
* **C51** names the same two exceptions, and they are needed: `C51_refuted_ei` (cut in two slices
  the program reaches `HALT`, in one go the limit) and `C51_refuted_take_back`.
* **C30** (*a halted CPU has neither a pending prefix nor a pending EI*; `debug_assert!` at
  `/repo/src/z80.rs` 495-496). `C30_refuted` follows from the first item (HALT fetched while the
  mark is stale), `C30_refuted_prefix` from the second. Proved instead:
  `C30_halt_excludes_pending_partial` for all histories under the two corresponding host
  conditions, and `C30_without_limit` without conditions for all other methods.

* **C58** (*skipping the counter/timer until its announced times loses nothing*). Four ways to tell:
  1. `C58_refuted_late`: `write_io` lets the channel announce its time but does not pass it on to the
     chip (`next_ts_hint`). A timer started between two looks is noticed only at the next edge of the
     external clock (or even the next zero of another timer), so that its interrupt comes late.
  2. `C58_refuted_panic`: in that time more zeros may pass than the collector of pulses has room
     for: a guest program that sets up a timer with prescaler 16 and constant 1 makes the emulator
     panic ("too many pulses").
  3. `C58_refuted_purge`: `CtcActive::purge_clk_trg` removes at most one edge per call although it is to
     remove all edges up to the given time. A channel that was a slow timer and becomes a counter
     counts stale edges.
  4. `C58_refuted_stale`: the clock starts at one second, the external clocks at zero, and the reset of
     the devices purges one edge at most. A counter started by the first instructions counts the edges of a
     second that never was: with constant 90 at 100 Hz its interrupt comes at once instead of after 0.9 s.

  `C58_on_time_partial` proves the interrupt to come in time for every timer the chip means to look at not later
  than its next zero, through any uses of the chip; `C58_looked` shows that each look establishes this.

* **C62** (*no program makes the emulator of the example computer panic*):
  1. `C62_refuted_pulses`: the default computer at 100 kHz, with a program of six instructions that lets channel 0
     fire every 16 T-states and halts, panics in its first frame ("too many pulses").
  2. `C62_refuted_mode`: selecting mode 2 or 3 of a parallel port, or an interrupt control word with a mask,
     ends in `unimplemented!`.
  3. `C62_refuted_slow`: with a valid but slow clock (200 Hz at an external clock of 10 Hz) the longest time of a
     timer is more than a second. Such a timer is not looked at for so long that `next_second` panics.

  4. `C62_refuted_wait`: a timer in channel 1 that waits for pulses of channel 0 may not be looked at when the pulse
     comes. Seconds later it starts at a time in the past, and `next_second` panics. (The witness is a sequence of
     calls of the devices.)

  `C62_default_partial` proves for the default clocks and processor clocks up to 2 GHz that nothing else panics: if at
  every moment of a run the pulses until then fit the collectors, control words of the parallel ports are implemented
  ones, and no timer in channels 1 and 3 is told to wait for its trigger, then there is no panic. Timers in channels 0
  and 2 may wait for the external clock. `C62_new_partial` is the same for all clocks within explicit bounds.

* **C64** (*break points stop the computer where they should*):
  1. `C64_refuted_stuck`: the address 0xFFFF stands for "no further break point". If a frame has passed with PC there, the
     search goes on past the end of the frame, and for a processor halted there with interrupts disabled
     `run_until_brkpt` never returns.
  2. `C64_refuted_late`: if the last instruction of a frame jumps back to a break point (or over the next one to
     another), None is returned although PC is at a break point. The next call returns it without running.

  `C64_run_until_brkpt_partial` proves the claim up to these two; `C64_frame_partial` and `C64_returns_partial` have no
  exception but the second when 0xFFFF is one of the break points.

* **C65** (*stepping does what it says*):
  1. `C65_refuted_pc`: of three prefixes in a row the second is shown at the address of the third.
  2. `C65_refuted_mode0`: in mode 0 a device that supplies the first byte of `IM 2` is shown as an interrupt of mode 2.
  3. `C65_refuted_stale`: in mode 0 a device that supplies a prefix makes `debug_runto_int` return the record of an
     earlier instruction. (The devices of the example computer cannot supply these bytes: their vectors are even.)

  `C65_debug_step_partial` and `C65_debug_runto_int_partial` leave out interrupts in mode 0 and describe the address of a
  lone prefix as it is; `C65_debug_runto_ret` has no exception.

* **C66** (*the preview shows the instruction executed next*): `C66_refuted_long`: with a `DD`/`FD` prefix that is of no
  use before an ED instruction of four bytes (`DD ED 43 34 12`) the preview has no mnemonic at all, since the buffer has
  room for four bytes only; the documentation of `debug_preview` does not list this case. `C66_refuted_prefixes` and
  `C66_refuted_banks` are the cases it does list. `C66_debug_preview_partial`, `C66_prefixed_partial` and
  `C66_computer_partial` prove the claim for everything else.

* **C68** (*running to completion steps over calls*): if the first step accepts an interrupt of mode 2,
  `irq_debug_update` has put the address of its handler in the place of the code, and `was_just_a_ret` and
  `was_just_a_call` take the low byte of the address for an opcode. `C68_refuted_ret`: a handler at 0x00C9 is taken for
  a return on entry. `C68_refuted_call`: a handler at 0x00CD is taken for a call of two bytes, whose end the
  interrupted program need not pass. `C68_run_to_completion_partial` proves the claim if the first step accepts no
  interrupt or one of mode 1; `C68_run_for` and `C68_run_irq` have no exception.

* **C70** (*the wrap of the second goes unnoticed*): `C70_refuted`: times before the new start of the clock are taken to
  be that start (`saturating_sub`). If channel 0 gets to zero while the last instruction of a second is executed but
  before the second ends, channel 1, which waits for it, starts late by the T-states in between.
  `C70_wrap_partial` proves the claim if nothing older than the new start is stored when the clock is set back
  (`Settled`).

* **C79** (*the thread ends when told to*): `C79_refuted_presses`: while the debugger waits, each press of the button of the
  non-maskable interrupt takes the clock 11 T-states ahead and no frame passes. When it is more than two seconds ahead, the
  second frame after Continue panics (`limit -= clock_hz` underflows in a checked build, otherwise the limit becomes
  wrong). `C79_refuted_hang`: `DebugCompletion` at a call of a subroutine that halts at 0xFFFF with interrupts disabled
  does not come back (see C64), so that Terminate is not seen. `C79_ends_partial` proves the claim for all messages
  without too many presses in a row in the debugger and without `DebugCompletion` in it.
* **C82** (*the HALT state can be entered from outside*): HALT steps PC back to its opcode and interrupts step over it;
  `halt` does not step PC back. `C82_refuted`: after `halt` an interrupt returns one byte further than it would have
  without. `C82_refuted_stuck`: `halt` leaves a pending prefix or EI as it is, and the halted steps of `execute_next` do not
  clear it, so that no interrupt is ever accepted. `C82_executed` is the claim for `execute_instruction`, and
  `C82_halt_partial`, `C82_same_partial` say what `halt` does when nothing is pending.
* **C83** (*the quick sort routines of the test program sort every array and write nowhere else*): each nested call takes 6
  bytes of stack and the stack has room for 85. `C83_refuted_ascending`, `C83_refuted_descending`: for the array `deep` the
  86th level is entered and the byte below the stack is overwritten. `C83_quick_ascending_partial` and
  `C83_quick_descending_partial` say that the routine sorts unless it gets that far, `C83_ordered_partial` that it never
  does for arrays in order already (which are left alone), and `C83_beyond_partial` that three
  levels more only spoil the unused buffer below the stack. Missing: what happens after that, and bounds of the time.
* **C86** (*the terminal refuses frequencies out of range*): `1_000 * clock` is calculated before the check. `C86_refuted`:
  536874912 kHz are accepted as 4 MHz by a release build, and a debug build panics. `C86_clock_partial` is the claim for
  numbers below 4294968.

### 4.2 Other findings

* A `DD`/`FD` prefix byte counts as an instruction that leaves the flags alone, so X and Y of a
  following `SCF`/`CCF` on NMOS and BM1 differ from the same instruction without prefix
  (`C15_scf_ccf`).
* A user who calls `halt()` after a prefix or after `EI` breaks the invariant of C30 directly;
  the theorems are about the execution methods and `reset`.
* An NMI leaves MEMPTR unchanged (C41, C26).
* `Z80Any::default()` is an NMOS CPU with all-zero state, whereas `Z80Any::with_tag("NMOS")` is a
  reset CPU (C36).
* Sequences of 17 elements (the format before the field `type` existed) are only recognised when
  the data format gives a size hint (`C40_legacy`, `C40_legacy_unknown`). The `type` of a map is
  ignored when a fixed flavour is deserialized (`C40_map`).
* The disassembler skips prefixes that have no effect without listing them (C39).
* Formatting fails (and `to_string()` panics) for some records that a user may build but that are never
  delivered: the operand buffer of 14 or 15 characters is exactly as long as the longest operands of an
  instruction (`C48_arbitrary`).
* `execute_with_limit` with a `TsCounter` never returns when the limit is within a few T-states of the
  maximum of the counter: the counter wraps around before it is compared (`C49_refuted_overflow`).

* A program of the example computer that writes to an output port before the byte before was accepted does not
  just lose a byte: when the sink gets room in between, it gets the new byte first and the old one after it
  (`C60_overrun`).
* `clock_is_valid` accepts clocks above 2^31 Hz, with which the first frame panics (`C61_fast`). Non-maskable
  interrupts that take more than a second between two frames would make `limit -= clock_hz` panic; C61 excludes
  them (`Sparse`).

### 4.3 Mutation tests

`seeded/LOG.jsonl` has one line per wrong edit of the model tried in a scratch copy: the
definition edited, the edit, the claim it breaks, the property theorems whose proofs (or a lemma
they depend on) no longer go through, and the theorems tightened because of it. A failing
declaration is replaced by `sorry` in the scratch copy so that all the modules built on it are
still checked; a theorem counts as failed when it depends on `sorryAx`.

## 5. What is modelled

### 5.1 Model (`Verif/Model`)

| module | models |
|--------|--------|
| `Basic` | bytes, words, `RegisterPair` |
| `Flags`, `Ops` | `src/cpu/flags.rs`, `src/z80/ops.rs`, all functions |
| `Parse` | `src/cpu/parse.rs`, `InterruptMode`, all conversions used or exported |
| `Flavour` | `src/z80/flavours.rs` |
| `Debug` | `CpuDebug` and its parts as data (`src/cpu/debug.rs`, `src/z80/debug.rs`) |
| `Prog`, `Exec` | programs of host calls, state monad |
| `Cpu` | `struct Z80` and all its methods without host (`src/z80.rs`) |
| `Internal` | `src/z80/internal.rs` |
| `Decode` | the three tables of `src/z80/opcodes.rs` |
| `Instr` | `src/z80/instructions.rs`, `src/z80/macros.rs` |
| `Run` | `execute_instruction`, `execute_next`, `execute_with_limit`, `irq`, `nmi` |
| `Host`, `Clock` | `TsCounter` (unsigned, signed), default methods of `Memory` and `Io`, a RAM host (`src/host.rs`) |
| `Forward` | the forwarding macros (`src/macros.rs`), default methods of `Memory` and `Io` for any type; associated types are shared with the wrapped host |
| `Any` | `src/z80/any.rs` |
| `Disasm` | `disasm_memory`, `disasm_memory_once` (`src/disasm.rs`) |
| `Fmt` | `Display`, `LowerHex`, `UpperHex` of debug records (`src/cpu/debug.rs`, `src/cpu/parse.rs`), `disasm_memory_write_text`, `disasm_memory_print_text` |
| `Serde` | `src/z80/serde.rs`, serde parts of `src/cpu/registers.rs`, `src/cpu/parse.rs`, `src/z80/flavours.rs` |
| `RalMemory` | `examples/ral1243/src/memory.rs` |
| `RalBus` | `examples/ral1243/src/bus.rs` (the traits of devices, `Terminator`) |
| `RalCtc` | `examples/ral1243/src/ctc.rs` |
| `RalPio` | `examples/ral1243/src/pio.rs`, `pio_device.rs` |
| `RalTrigger` | `examples/ral1243/src/ctc_trigger.rs` |
| `RalBoard` | how `examples/ral1243/src/lib.rs` connects the devices |
| `RalMachine` | `examples/ral1243/src/lib.rs`, `runner.rs`, `clock.rs`, the bus of `bus.rs` |
| `OpConsts` | `src/lib.rs` 198-294, `examples/ral1243/src/debug.rs` 457-480 |
| `RalDebug` | `examples/ral1243/src/debug.rs` 159-184, 196-454 (`debug_preview`, `debug_step`, `debug_runto_int`, `debug_runto_ret`, `run_until_brkpt`); `binary_search` is a parameter |
| `RalThread` | `examples/ral1243/src/thread.rs` 141-157, 205, 217-240 (`run_to_completion`, `DebugRunIrq`, `run_for`) |
| `RalRunner` | `examples/ral1243/src/thread.rs` 16-33, 76-139, 160-213 (`RunnerMsg`, `run`, `debug`): the channel is a list; sleeping, the log of the speed and the text printed are not modelled, and `debug_preview` is taken to change nothing and not to panic (C66, C76) |
| `RalScreen` | `examples/ral1243/src/debug.rs` 24-157 (`Header`, `Preview`, `Debugger` and the functions that format); formatter options other than `#` are not modelled, they have no effect there |
| `Embedded` | `examples/embedded/embedded.rs` 27-81 (the same as the example in `src/lib.rs`); a panic ends the program; what is given to the debugger is thrown away |
| `RalTerminal` | `examples/terminal.rs` 37-43, 75-79, 108-221; the window (`pancurses`) is a parameter; logging, text shown before the loop and the parser of the command line are not modelled; `i32` additions are taken with overflow checks |

Simplifications:

* `pc`, `sp`, `memptr` are words; in Rust they are register pairs read and written as words only.
* `NonZeroU8`/`NonZeroU16` arguments are plain bytes and words. The wait states given by a host may
  thus also be `some 0`, which Rust cannot express; the theorems hold for that case too.
* The prefix in a debug record is the local variable `prefix`; the Rust macro takes the prefix of
  the table arm, which is the same value in all arms.
* The buffer of a debug record is a list; that at most four bytes are stored is a theorem
  (`C38_fits`).
* In `RalMachine` a panic of a device or undefined behaviour of the memory makes the bus `none`: from then on it is
  silent. Theorems about panics say that it is not `none`.
* `execute_with_limit` and the loop of the disassembler take a bound on iterations. The theorems
  hold for every bound, and for the disassembler a sufficient bound is proved.
* Text is ASCII, so that its length is that in bytes; a line goes to the writer of
  `disasm_memory_write_text` at once, where Rust hands it over in pieces.
* `str::eq_ignore_ascii_case` compares characters.
* A serde data format is a tree of values and three properties: human readable or not, size hints
  or not, enum variants and structs by name or by index. The behaviour of `serde_derive` is assumed
  as documented (see the comments in `Model/Serde`).
* A raw pointer in the memory of the example computer names an allocation; aliasing rules of Rust
  beyond use after free and out of bounds are not modelled.

Not modelled: rustc code generation and inlining attributes, derived `Debug`
output, precision and fill characters given by the user when formatting, `BreakCause` conversions to
text, serde of `TsCounter`, and of `examples/` all but what section 5.1 lists from `examples/ral1243/src`, `examples/terminal.rs` and `examples/embedded/embedded.rs`.

### 5.2 Specifications (`Verif/Spec`)

These say what "correct" means, without reference to the helpers of the model.

| module | says |
|--------|------|
| `Alu` | results and flags bit by bit from integer arithmetic |
| `Decode` | instructions by the x-y-z fields of the opcode |
| `Machine` | programmer-level machine: registers, memory, devices, one step per instruction |
| `Bus` | bus cycles of every instruction as a tree, with T-states |
| `Calls` | the host calls made for each bus cycle |
| `Path` | one path through such a tree |
| `Access` | memory and port accesses seen by a host, opcode fetches apart |
| `Timing` | published T-state table |
| `Writes` | addresses written by each instruction |
| `Wz` | published MEMPTR rules |
| `Variant` | instructions on which the CPU types differ |
| `Prefix` | chains of prefixes, opcodes that use HL |
| `Control` | interrupt and halt state |
| `Clock` | cycle lengths, timestamps |
| `Pace` | calls between two tests of the limit |
| `Length`, `Listing` | instruction lengths, listing of a slice |
| `Asm`, `Text` | assembly language of every instruction, lines of a listing |
| `Frame` | registers each instruction may change, PC after it |
| `RalMemory` | memory map of the example computer |
| `RalChain` | priorities, vectors and RETI in a daisy chain |
| `RalTimer` | zeros and values of a timer |
| `RalCounter` | pulses and values of a counter, edges of the external clock and of pulses |
| `RalPio` | handover of bytes |
| `RalFrame` | frames and what comes in between |
| `RalSafe` | moments of a run of the example computer and what is asked of them |

The specification in `Machine` and the one in `Bus` are independent of each other and of the
model; both refinements (C44 on RAM hosts, C45 on any host) are proved, and `Timing`, `Writes`,
`Wz` are third descriptions that are checked against the code through C45.
* `Shuffle`: the bytes of the crate's test program, what sorting an array means (C71), and products and decimal
  text (C73). The host is memory of
  64 KiB; the checks that the test's own host makes of every address (`/repo/tests/shuffle/mod.rs`) are not modelled, but
  the theorems bound the addresses written.
* `Shuffled`: the random number generator, drawing a place, the inside-out shuffle (C84). Computed outside Lean for the
  six seeds of `/repo/tests/shuffle/shuffled_*.bin`, this description gives the arrays recorded there.
* `RalTerminal`: codes of the terminal as a grammar; what can be done to a window (C85).
* `Mirror`: IX and IY, DD and FD exchanged (C75).
* `RalRunner`: the monitor of the thread, the messages taken, patient users (C78, C79).
* `Synonym`: the documented encoding `canon` of instructions with several encodings (C80).
* `Screen`: a text below a title; bits of a byte; the columns of a line (C76).
* `RalRom`: steps of the interrupt routines in the ROM of the example computer; the frame counter (C88). `RalRomInput`, `RalRomOutput`: the routines for a character received and sent. `RalRomCall`: the call that fetches a character (C89). `RalRomSend`: the call that sends one (C90).
* `Alike`, `Clockwork`: when two hosts and their limits correspond; devices that do not look at the time; clocks of any kind (C77).
* `Wide`: the bytes of the loops, numbers of many bytes to the base 256 or 100 (C74). The host is memory of 64 KiB.
  The numbers may be anywhere, and be the same number, but the result may overwrite neither the loop nor bytes of the
  other number that are still needed.
* `Example`: the bytes of the program of the documentation, Fibonacci numbers (C72). The host is memory of 64 KiB
  containing the program, where the example has a ROM of eleven bytes whose other addresses panic.

### 5.3 Proofs and properties

`Verif/Proofs` has the lemmas, `Verif/Props` only the property theorems, each followed by an
`example` showing that its hypotheses are met by a concrete non-trivial case.
