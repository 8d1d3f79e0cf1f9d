Z80.C01_add [propext, Classical.choice, Quot.sound]
Z80.C01_adc [propext, Classical.choice, Quot.sound]
Z80.C01_executed [propext, Classical.choice, Quot.sound]
Z80.C02_sub [propext, Classical.choice, Quot.sound]
Z80.C02_sbc [propext, Classical.choice, Quot.sound]
Z80.C02_cp [propext, Classical.choice, Quot.sound]
Z80.C02_neg [propext, Classical.choice, Quot.sound]
Z80.C02_executed [propext, Classical.choice, Quot.sound]
Z80.C02_executed_cp [propext, Classical.choice, Quot.sound]
Z80.C02_executed_neg [propext, Classical.choice, Quot.sound]
Z80.C03_inc [propext, Classical.choice, Quot.sound]
Z80.C03_dec [propext, Classical.choice, Quot.sound]
Z80.C03_executed [propext, Classical.choice, Quot.sound]
Z80.C03_executed_mem [propext, Classical.choice, Quot.sound]
Z80.C04_add16 [propext, Classical.choice, Quot.sound]
Z80.C04_adc16 [propext, Classical.choice, Quot.sound]
Z80.C04_sbc16 [propext, Classical.choice, Quot.sound]
Z80.C04_executed [propext, Classical.choice, Quot.sound]
Z80.C04_executed_carry [propext, Classical.choice, Quot.sound]
Z80.C05_logic [propext, Quot.sound]
Z80.C05_cpl_scf_ccf [propext, Classical.choice, Quot.sound]
Z80.C05_executed [propext, Classical.choice, Quot.sound]
Z80.C05_executed_cpl_scf_ccf [propext, Classical.choice, Quot.sound]
Z80.C06_daa [propext, Quot.sound]
Z80.C06_bcd_add [propext, Classical.choice, Quot.sound]
Z80.C06_bcd_sub [propext, Classical.choice, Quot.sound]
Z80.C06_executed [propext, Classical.choice, Quot.sound]
Z80.C06_executed_add [propext, Classical.choice, Quot.sound]
Z80.C06_executed_sub [propext, Classical.choice, Quot.sound]
Z80.C07_shifts [propext, Classical.choice, Quot.sound]
Z80.C07_acc_rotates [propext, Quot.sound]
Z80.C07_inverses [propext, Quot.sound]
Z80.C07_executed_acc [propext, Classical.choice, Quot.sound]
Z80.C07_executed [propext, Classical.choice, Quot.sound]
Z80.C08_set_res [propext, Classical.choice, Quot.sound]
Z80.C08_bit [propext, Quot.sound]
Z80.C08_rld_rrd [propext, Quot.sound]
Z80.C08_rld_rrd_inverse [propext, Quot.sound]
Z80.C08_executed [propext, Classical.choice, Quot.sound]
Z80.C08_executed_bit [propext, Classical.choice, Quot.sound]
Z80.C08_executed_rld_rrd [propext, Classical.choice, Quot.sound]
Z80.C09_get_reg [propext, Quot.sound]
Z80.C09_set_reg [propext, Quot.sound]
Z80.C09_set_get_reg []
Z80.C09_acc_flags [propext, Quot.sound]
Z80.C09_get_reg16 [propext, Quot.sound]
Z80.C09_get_alt [propext, Quot.sound]
Z80.C09_set_reg2 [propext, Quot.sound]
Z80.C09_set_reg16 [propext, Quot.sound]
Z80.C09_set_get_reg16 [propext, Quot.sound]
Z80.C09_get_index [propext, Quot.sound]
Z80.C09_set_index [propext, Quot.sound]
Z80.C09_set_other [propext, Quot.sound]
Z80.C09_set_r [propext, Classical.choice, Quot.sound]
Z80.C10_api_ex_af_af [propext, Quot.sound]
Z80.C10_api_exx [propext, Quot.sound]
Z80.C10_ex_af_af [propext, Quot.sound]
Z80.C10_exx [propext, Quot.sound]
Z80.C10_ex_de_hl [propext, Quot.sound]
Z80.C10_twice [propext, Quot.sound]
Z80.C11_instruction [propext, Classical.choice, Quot.sound]
Z80.C11_next [propext, Classical.choice, Quot.sound]
Z80.C11_irq [propext, Classical.choice, Quot.sound]
Z80.C11_nmi [propext, Classical.choice, Quot.sound]
Z80.C11_history [propext, Classical.choice, Quot.sound]
Z80.C11_bit7 [propext, Classical.choice, Quot.sound]
Z80.C11_add_r [propext, Quot.sound]
Z80.C11_add_r_neg [propext, Quot.sound]
Z80.C11_inc_r [propext, Classical.choice, Quot.sound]
Z80.C11_add_r_get [propext, Classical.choice, Quot.sound]
Z80.C11_normalize_r [propext, Classical.choice, Quot.sound]
Z80.C12_reset [propext]
Z80.C12_nmos [propext, Quot.sound]
Z80.C12_cmos [propext]
Z80.C12_bm1 [propext, Quot.sound]
Z80.C12_values [propext, Quot.sound]
Z80.C12_interrupts []
Z80.C13_tables_total [propext, Quot.sound]
Z80.C13_table0 [propext, Classical.choice, Quot.sound]
Z80.C13_tableEd [propext, Classical.choice, Quot.sound]
Z80.C13_tableCb [propext, Classical.choice, Quot.sound]
Z80.C13_tableI [propext, Classical.choice, Quot.sound]
Z80.C13_executed [propext, Classical.choice, Quot.sound]
Z80.C13_executed_cb [propext, Classical.choice, Quot.sound]
Z80.C13_executed_xcb [propext, Classical.choice, Quot.sound]
Z80.C13_executed_ed [propext, Classical.choice, Quot.sound]
Z80.C14_instruction [propext, Classical.choice, Quot.sound]
Z80.C14_next [propext, Classical.choice, Quot.sound]
Z80.C14_irq [propext, Classical.choice, Quot.sound]
Z80.C14_limit [propext, Classical.choice, Quot.sound]
Z80.C15_prefix [propext, Classical.choice, Quot.sound]
Z80.C15_prefix_next [propext, Classical.choice, Quot.sound]
Z80.C15_chain [propext, Classical.choice, Quot.sound]
Z80.C15_chain_effect [propext, Classical.choice, Quot.sound]
Z80.C15_unaffected [propext, Classical.choice, Quot.sound]
Z80.C15_consumed [propext, Classical.choice, Quot.sound]
Z80.C15_as_without [propext, Classical.choice, Quot.sound]
Z80.C15_scf_ccf [propext, Classical.choice, Quot.sound]
Z80.C16_execute_instruction [propext, Classical.choice, Quot.sound]
Z80.C16_execute_next [propext, Classical.choice, Quot.sound]
Z80.C16_irq [propext, Classical.choice, Quot.sound]
Z80.C16_irq_mode0 [propext, Classical.choice, Quot.sound]
Z80.C16_nmi [propext, Classical.choice, Quot.sound]
Z80.C16_counter [propext, Classical.choice, Quot.sound]
Z80.C17_execute_next [propext, Classical.choice, Quot.sound]
Z80.C17_execute_instruction [propext, Classical.choice, Quot.sound]
Z80.C17_irq [propext, Classical.choice, Quot.sound]
Z80.C17_nmi [propext, Classical.choice, Quot.sound]
Z80.C17_counter [propext, Classical.choice, Quot.sound]
Z80.C18_push_pop [propext, Classical.choice, Quot.sound]
Z80.C18_executed_push [propext, Classical.choice, Quot.sound]
Z80.C18_executed_pop [propext, Classical.choice, Quot.sound]
Z80.C19_call [propext, Classical.choice, Quot.sound]
Z80.C19_rst [propext, Classical.choice, Quot.sound]
Z80.C19_call_ret [propext, Classical.choice, Quot.sound]
Z80.C19_ret_skip [propext, Classical.choice, Quot.sound]
Z80.C19_executed_call [propext, Classical.choice, Quot.sound]
Z80.C19_executed_rst [propext, Classical.choice, Quot.sound]
Z80.C19_executed_ret [propext, Classical.choice, Quot.sound]
Z80.C20_jp [propext, Classical.choice, Quot.sound]
Z80.C20_jp_hl [propext, Classical.choice, Quot.sound]
Z80.C20_jr [propext, Classical.choice, Quot.sound]
Z80.C20_djnz [propext, Classical.choice, Quot.sound]
Z80.C20_executed_jp [propext, Classical.choice, Quot.sound]
Z80.C20_executed_jr [propext, Classical.choice, Quot.sound]
Z80.C21_run [propext, Classical.choice, Quot.sound]
Z80.C21_intact [propext, Quot.sound]
Z80.C21_block [propext, Quot.sound]
Z80.C21_fill [propext, Quot.sound]
Z80.C22_stops [propext, Quot.sound]
Z80.C22_run [propext, Classical.choice, Quot.sound]
Z80.C23_in [propext, Classical.choice, Quot.sound]
Z80.C23_out [propext, Classical.choice, Quot.sound]
Z80.C23_in_log [propext, Quot.sound]
Z80.C23_out_log [propext, Quot.sound]
Z80.C23_time [propext, Quot.sound]
Z80.C24_refused [propext, Quot.sound]
Z80.C24_accepted [propext, Classical.choice, Quot.sound]
Z80.C24_iff [propext, Classical.choice, Quot.sound]
Z80.C24_next [propext, Quot.sound]
Z80.C25_irq [propext, Classical.choice, Quot.sound]
Z80.C25_next [propext, Quot.sound]
Z80.C25_executed [propext, Classical.choice, Quot.sound]
Z80.C25_executed_mode0 [propext, Classical.choice, Quot.sound]
Z80.C26_nmi [propext, Classical.choice, Quot.sound]
Z80.C26_calls [propext, Quot.sound]
Z80.C27_after_ei [propext, Classical.choice, Quot.sound]
Z80.C27_next_instruction [propext, Classical.choice, Quot.sound]
Z80.C27_run [propext, Classical.choice, Quot.sound]
Z80.C28_instruction [propext, Classical.choice, Quot.sound]
Z80.C28_irq [propext, Classical.choice, Quot.sound]
Z80.C28_nmi [propext, Classical.choice, Quot.sound]
Z80.C28_invariant [propext, Classical.choice, Quot.sound]
Z80.C28_from_reset [propext, Classical.choice, Quot.sound]
Z80.C28_nmi_retn [propext, Classical.choice, Quot.sound]
Z80.C29_halt [propext, Classical.choice, Quot.sound]
Z80.C29_step [propext, Quot.sound]
Z80.C29_steps [propext, Classical.choice, Quot.sound]
Z80.C29_time [propext, Quot.sound]
Z80.C29_return [propext, Classical.choice, Quot.sound]
Z80.C30_halt_excludes_pending_partial [propext, Classical.choice, Quot.sound]
Z80.C30_reset []
Z80.C30_without_limit [propext, Classical.choice, Quot.sound]
Z80.C30_refuted [propext, Quot.sound]
Z80.C30_refuted_prefix [propext, Quot.sound]
Z80.C31_limit_refines_next_partial [propext, Classical.choice, Quot.sound]
Z80.C31_limit_refines_next_halted_partial [propext, Classical.choice, Quot.sound]
Z80.C31_bound [propext, Quot.sound]
Z80.C31_refuted [propext, Classical.choice, Quot.sound]
Z80.C31_refuted_halted [propext, Classical.choice, Quot.sound]
Z80.C31_limit_is_rounds_partial [propext, Classical.choice, Quot.sound]
Z80.C32_reasons [propext, Classical.choice, Quot.sound]
Z80.C32_reasons_single [propext, Quot.sound]
Z80.C32_limit_already_reached [propext, Quot.sound]
Z80.C33_execute_next [propext, Quot.sound]
Z80.C33_execute_instruction [propext, Quot.sound]
Z80.C33_irq [propext, Quot.sound]
Z80.C33_silenced [propext, Quot.sound]
Z80.C34_execute_instruction [propext, Classical.choice, Quot.sound]
Z80.C34_execute_next [propext, Classical.choice, Quot.sound]
Z80.C34_irq [propext, Classical.choice, Quot.sound]
Z80.C34_nmi [propext, Classical.choice, Quot.sound]
Z80.C34_program [propext, Classical.choice, Quot.sound]
Z80.C34_scf_ccf [propext, Classical.choice, Quot.sound]
Z80.C34_store_a [propext, Classical.choice, Quot.sound]
Z80.C34_store_a_zilog [propext, Classical.choice, Quot.sound]
Z80.C34_out_c_0 [propext, Classical.choice, Quot.sound]
Z80.C34_out_c_0_bytes [propext, Quot.sound]
Z80.C34_ld_a_ir [propext, Classical.choice, Quot.sound]
Z80.C34_ed_alike [propext, Classical.choice, Quot.sound]
Z80.C35_history [propext, Classical.choice, Quot.sound]
Z80.C35_nmi [propext, Classical.choice, Quot.sound]
Z80.C35_nmos [propext, Classical.choice, Quot.sound]
Z80.C35_bm1 [propext, Classical.choice, Quot.sound]
Z80.C35_cmos [propext, Classical.choice, Quot.sound]
Z80.C35_not_affecting [propext, Classical.choice, Quot.sound]
Z80.C35_affecting [propext, Quot.sound]
Z80.C35_affecting_cb [propext, Quot.sound]
Z80.C35_affecting_ed [propext, Quot.sound]
Z80.C36_method [propext, Quot.sound]
Z80.C36_methods [propext, Quot.sound]
Z80.C36_execute_with_limit [propext, Quot.sound]
Z80.C36_conversion [propext, Quot.sound]
Z80.C36_commute [propext, Quot.sound]
Z80.C36_commute_hyp [propext, Quot.sound]
Z80.C36_round_trip []
Z80.C36_by_cmos []
Z80.C36_goes_on [propext, Classical.choice, Quot.sound]
Z80.C36_wrap [propext, Quot.sound]
Z80.C36_into [propext, Quot.sound]
Z80.C36_is [propext, Classical.choice, Quot.sound]
Z80.C36_with_tag [propext, Classical.choice, Quot.sound]
Z80.C36_tags [propext, Classical.choice, Quot.sound]
Z80.C37_execute_next [propext, Quot.sound]
Z80.C37_execute_instruction [propext, Quot.sound]
Z80.C37_irq [propext, Quot.sound]
Z80.C37_at_most_once [propext, Quot.sound]
Z80.C37_at_most_once_instruction [propext, Quot.sound]
Z80.C38_execute_next [propext, Classical.choice, Quot.sound]
Z80.C38_ram [propext, Classical.choice, Quot.sound]
Z80.C38_halted [propext, Classical.choice, Quot.sound]
Z80.C38_fits [propext, Classical.choice, Quot.sound]
Z80.C38_fits_instruction [propext, Classical.choice, Quot.sound]
Z80.C38_fits_irq [propext, Classical.choice, Quot.sound]
Z80.Disasm.C39_disasm_memory [propext, Classical.choice, Quot.sound]
Z80.Disasm.C39_any [propext, Quot.sound]
Z80.Disasm.C39_once [propext, Classical.choice, Quot.sound]
Z80.Disasm.C39_inside [propext, Quot.sound]
Z80.Disasm.C39_listing_unique [propext, Quot.sound]
Z80.Serde.C40_round_trip_any [propext, Classical.choice, Quot.sound]
Z80.Serde.C40_convert [propext, Classical.choice, Quot.sound]
Z80.Serde.C40_round_trip [propext, Classical.choice, Quot.sound]
Z80.Serde.C40_map_any [propext, Classical.choice, Quot.sound]
Z80.Serde.C40_map [propext, Classical.choice, Quot.sound]
Z80.Serde.C40_order [propext, Classical.choice, Quot.sound]
Z80.Serde.C40_order_cpu [propext, Classical.choice, Quot.sound]
Z80.Serde.C40_duplicate [propext, Classical.choice, Quot.sound]
Z80.Serde.C40_unknown [propext, Classical.choice, Quot.sound]
Z80.Serde.C40_missing [propext, Classical.choice, Quot.sound]
Z80.Serde.C40_default [propext, Classical.choice, Quot.sound]
Z80.Serde.C40_default_any [propext, Classical.choice, Quot.sound]
Z80.Serde.C40_legacy [propext, Classical.choice, Quot.sound]
Z80.Serde.C40_legacy_unknown [propext, Classical.choice, Quot.sound]
Z80.Serde.C40_length [propext, Classical.choice, Quot.sound]
Z80.Serde.C40_length_any [propext, Classical.choice, Quot.sound]
Z80.Serde.C40_no_panic [propext, Classical.choice, Quot.sound]
Z80.Serde.C40_pair_int [propext, Classical.choice, Quot.sound]
Z80.Serde.C40_pair_seq [propext, Classical.choice, Quot.sound]
Z80.Serde.C40_pair_hex [propext, Classical.choice, Quot.sound]
Z80.C41_execute_instruction [propext, Classical.choice, Quot.sound]
Z80.C41_execute_next [propext, Classical.choice, Quot.sound]
Z80.C41_bit [propext, Classical.choice, Quot.sound]
Z80.C42_counter [propext]
Z80.C42_timestamps [propext]
Z80.C42_limit [propext]
Z80.C42_no_wrap [propext]
Z80.C42_counter_signed [propext, Quot.sound]
Z80.C42_limit_signed [propext, Quot.sound]
Z80.C42_timestamps_signed [propext, Quot.sound]
Z80.C43_execute_instruction [propext, Classical.choice, Quot.sound]
Z80.C43_execute_next [propext, Classical.choice, Quot.sound]
Z80.C43_irq [propext, Classical.choice, Quot.sound]
Z80.C43_nmi [propext, Classical.choice, Quot.sound]
Z80.C43_ram [propext, Classical.choice, Quot.sound]
Z80.C43_ram_all [propext, Quot.sound]
Z80.C44_execute_next [propext, Classical.choice, Quot.sound]
Z80.C44_execute_instruction [propext, Classical.choice, Quot.sound]
Z80.C44_nmi [propext, Classical.choice, Quot.sound]
Z80.C44_irq [propext, Classical.choice, Quot.sound]
Z80.C44_history [propext, Classical.choice, Quot.sound]
Z80.C45_execute_next [propext, Classical.choice, Quot.sound]
Z80.C45_execute_instruction [propext, Classical.choice, Quot.sound]
Z80.C45_irq [propext, Classical.choice, Quot.sound]
Z80.C45_nmi [propext, Classical.choice, Quot.sound]
Z80.C45_runs [propext, Classical.choice, Quot.sound]
Z80.C45_stamps_limit [propext, Classical.choice, Quot.sound]
Z80.C45_stamps_next [propext, Classical.choice, Quot.sound]
Z80.C45_stamps_nmi [propext, Classical.choice, Quot.sound]
Z80.C46_no_unreachable [propext, Quot.sound]
Z80.C46_fields [propext, Quot.sound]
Z80.C46_round_trips [propext, Quot.sound]
Z80.C46_parse_exact []
Z80.C46_is_satisfied [propext, Quot.sound]
Z80.C47_execute_next [propext, Classical.choice, Quot.sound]
Z80.C47_execute_instruction [propext, Classical.choice, Quot.sound]
Z80.C47_irq [propext, Classical.choice, Quot.sound]
Z80.C47_disasm_memory [propext, Classical.choice, Quot.sound]
Z80.C47_ram [propext, Classical.choice, Quot.sound]
Z80.C48_execute_next [propext, Classical.choice, Quot.sound]
Z80.C48_execute_instruction [propext, Classical.choice, Quot.sound]
Z80.C48_irq [propext, Classical.choice, Quot.sound]
Z80.C48_columns [propext, Classical.choice, Quot.sound]
Z80.C48_args [propext, Classical.choice, Quot.sound]
Z80.C48_arbitrary [propext, Classical.choice, Quot.sound]
Z80.Disasm.C48_write_text [propext, Classical.choice, Quot.sound]
Z80.Disasm.C48_print_text [propext, Classical.choice, Quot.sound]
Z80.C49_progress [propext, Classical.choice, Quot.sound]
Z80.C49_laps [propext, Classical.choice, Quot.sound]
Z80.C49_returns [propext, Classical.choice, Quot.sound]
Z80.C49_returns_signed [propext, Classical.choice, Quot.sound]
Z80.C49_refuted_overflow [propext, Quot.sound]
Z80.C50_groups [propext, Classical.choice, Quot.sound]
Z80.C50_transparent [propext, Classical.choice, Quot.sound]
Z80.C50_nested [propext, Classical.choice, Quot.sound]
Z80.C50_capture [propext, Quot.sound]
Z80.C50_read_debug [propext, Quot.sound]
Z80.C50_without_read_debug [propext, Classical.choice, Quot.sound]
Z80.C50_read_debug_seen [propext, Quot.sound]
Z80.C50_left_out [propext, Quot.sound]
Z80.C50_no_devices [propext, Quot.sound]
Z80.C50_plain_memory [propext, Quot.sound]
Z80.C50_slice [propext, Quot.sound]
Z80.C51_two_slices [propext, Classical.choice, Quot.sound]
Z80.C51_slices [propext, Classical.choice, Quot.sound]
Z80.C51_counter [propext, Classical.choice, Quot.sound]
Z80.C51_refuted_ei [propext, Quot.sound]
Z80.C51_refuted_take_back [propext, Quot.sound]
Z80.C52_step [propext, Classical.choice, Quot.sound]
Z80.C52_interrupted [propext, Classical.choice, Quot.sound]
Z80.C52_handled [propext, Classical.choice, Quot.sound]
Z80.C52_ram [propext, Quot.sound]
Z80.C52_ram_handled [propext, Classical.choice, Quot.sound]
Z80.C52_copy [propext, Classical.choice, Quot.sound]
Z80.C53_execute_instruction [propext, Classical.choice, Quot.sound]
Z80.C53_execute_next [propext, Classical.choice, Quot.sound]
Z80.C53_irq [propext, Classical.choice, Quot.sound]
Z80.C53_nmi [propext, Classical.choice, Quot.sound]
Z80.C53_exact [propext, Quot.sound]
Z80.C53_exact_cb [propext, Quot.sound]
Z80.C53_exact_ed [propext, Quot.sound]
Z80.C54_execute_instruction [propext, Classical.choice, Quot.sound]
Z80.C54_execute_next [propext, Classical.choice, Quot.sound]
Z80.C54_irq [propext, Classical.choice, Quot.sound]
Z80.C54_nmi [propext, Classical.choice, Quot.sound]
Z80.C54_straight [propext, Classical.choice, Quot.sound]
Z80.Ral.C55_map [propext, Classical.choice, Quot.sound]
Z80.Ral.C55_new [propext, Quot.sound]
Z80.Ral.C55_word [propext, Classical.choice, Quot.sound]
Z80.Ral.C55_rom [propext, Quot.sound]
Z80.Ral.C55_attach_all [propext, Quot.sound]
Z80.Ral.C56_end [propext]
Z80.Ral.C56_ctc [propext, Quot.sound]
Z80.Ral.C56_pio [propext, Quot.sound]
Z80.Ral.C56_nested [propext, Quot.sound]
Z80.Ral.C56_vector [propext, Quot.sound]
Z80.Ral.C56_reset [propext]
Z80.Ral.C56_pending [propext]
Z80.Ral.C56_board [propext, Quot.sound]
Z80.Ral.C56_ctc_vectors [propext, Quot.sound]
Z80.Ral.C56_pio_vectors [propext, Quot.sound]
Z80.Ral.C57_start [propext, Quot.sound]
Z80.Ral.C57_runs [propext, Classical.choice, Quot.sound]
Z80.Ral.C57_lazy [propext, Classical.choice, Quot.sound]
Z80.Ral.C57_read [propext, Classical.choice, Quot.sound]
Z80.Ral.C57_retime [propext, Classical.choice, Quot.sound]
Z80.Ral.C57_second [propext, Quot.sound]
Z80.Ral.C57_total [propext, Classical.choice, Quot.sound]
Z80.Ral.C57_active [propext, Quot.sound]
Z80.Ral.C58_on_time_partial [propext, Classical.choice, Quot.sound]
Z80.Ral.C58_looked [propext, Classical.choice, Quot.sound]
Z80.Ral.C58_refuted_late [propext, Quot.sound]
Z80.Ral.C58_refuted_panic [propext, Quot.sound]
Z80.Ral.C58_refuted_purge []
Z80.Ral.C58_refuted_stale [propext, Quot.sound]
Z80.Ral.C59_start [propext, Quot.sound]
Z80.Ral.C59_counts [propext, Quot.sound]
Z80.Ral.C59_all [propext, Quot.sound]
Z80.Ral.C59_clock [propext, Classical.choice, Quot.sound]
Z80.Ral.C59_chained [propext, Quot.sound]
Z80.Ral.C59_second [propext, Classical.choice, Quot.sound]
Z80.Ral.C59_cascade [propext, Classical.choice, Quot.sound]
Z80.Ral.C59_timer_cascade [propext, Classical.choice, Quot.sound]
Z80.Ral.C59_new [propext, Quot.sound]
Z80.Ral.C60_input [propext, Quot.sound]
Z80.Ral.C60_once [propext, Quot.sound]
Z80.Ral.C60_input_reset [propext, Quot.sound]
Z80.Ral.C60_input_irq [propext, Quot.sound]
Z80.Ral.C60_output [propext, Quot.sound]
Z80.Ral.C60_output_irq [propext, Quot.sound]
Z80.Ral.C60_output_start [propext, Quot.sound]
Z80.Ral.C60_behind [propext, Quot.sound]
Z80.Ral.C60_board [propext, Quot.sound]
Z80.Ral.C60_overrun [propext, Quot.sound]
Z80.Ral.C61_prompt [propext, Quot.sound]
Z80.Ral.C61_pace [propext, Classical.choice, Quot.sound]
Z80.Ral.C61_frames [propext, Classical.choice, Quot.sound]
Z80.Ral.C61_default [propext, Classical.choice, Quot.sound]
Z80.Ral.C61_fast [propext, Quot.sound]
Z80.Ral.C62_new_partial [propext, Classical.choice, Quot.sound]
Z80.Ral.C62_default_partial [propext, Classical.choice, Quot.sound]
Z80.Ral.C62_refuted_pulses [propext, Quot.sound]
Z80.Ral.C62_refuted_mode [propext, Quot.sound]
Z80.Ral.C62_refuted_slow [propext, Quot.sound]
Z80.Ral.C62_refuted_wait [propext, Quot.sound]
Z80.C63_named []
Z80.C63_unique [propext, Quot.sound]
Z80.C63_match [propext, Quot.sound]
Z80.C63_match_rst [propext, Quot.sound]
Z80.C63_build [propext, Quot.sound]
Z80.C63_execute_instruction [propext, Classical.choice, Quot.sound]
Z80.C63_execute_next [propext, Classical.choice, Quot.sound]
Z80.Ral.C64_run_until_brkpt_partial [propext, Quot.sound]
Z80.Ral.C64_frame_partial [propext, Quot.sound]
Z80.Ral.C64_returns_partial [propext, Classical.choice, Quot.sound]
Z80.Ral.C64_refuted_stuck [propext, Quot.sound]
Z80.Ral.C64_refuted_late [propext, Quot.sound]
Z80.Ral.C65_debug_step_partial [propext, Classical.choice, Quot.sound]
Z80.Ral.C65_debug_runto_int_partial [propext, Classical.choice, Quot.sound]
Z80.Ral.C65_int_returns [propext, Classical.choice, Quot.sound]
Z80.Ral.C65_debug_runto_ret [propext, Classical.choice, Quot.sound]
Z80.Ral.C65_ret_returns [propext, Classical.choice, Quot.sound]
Z80.Ral.C65_transparent [propext, Quot.sound]
Z80.Ral.C65_refuted_pc [propext, Quot.sound]
Z80.Ral.C65_refuted_mode0 [propext, Quot.sound]
Z80.Ral.C65_refuted_stale [propext, Quot.sound]
Z80.Ral.C66_debug_preview_partial [propext, Classical.choice, Quot.sound]
Z80.Ral.C66_prefixed_partial [propext, Classical.choice, Quot.sound]
Z80.Ral.C66_computer_partial [propext, Classical.choice, Quot.sound]
Z80.Ral.C66_refuted_long [propext, Quot.sound]
Z80.Ral.C66_refuted_prefixes [propext, Quot.sound]
Z80.Ral.C66_refuted_banks [propext, Quot.sound]
Z80.C67_execute_instruction [propext, Classical.choice, Quot.sound]
Z80.C67_execute_next [propext, Classical.choice, Quot.sound]
Z80.C67_irq [propext, Classical.choice, Quot.sound]
Z80.C67_nmi [propext, Classical.choice, Quot.sound]
Z80.C67_program [propext, Classical.choice, Quot.sound]
Z80.C67_shows [propext, Quot.sound]
Z80.C67_push_af [propext, Classical.choice, Quot.sound]
Z80.C67_pop_af [propext, Classical.choice, Quot.sound]
Z80.C67_ram_step [propext, Classical.choice, Quot.sound]
Z80.C67_ram [propext, Classical.choice, Quot.sound]
Z80.Ral.C68_run_for [propext, Quot.sound]
Z80.Ral.C68_run_to_completion_partial [propext, Classical.choice, Quot.sound]
Z80.Ral.C68_run_irq [propext, Classical.choice, Quot.sound]
Z80.Ral.C68_refuted_ret [propext, Quot.sound]
Z80.Ral.C68_refuted_call [propext, Quot.sound]
Z80.Ral.C69_session [propext, Classical.choice, Quot.sound]
Z80.Ral.C69_frames [propext, Classical.choice, Quot.sound]
Z80.Ral.C69_default [propext, Classical.choice, Quot.sound]
Z80.Ral.C70_wrap_partial [propext, Classical.choice, Quot.sound]
Z80.Ral.C70_refuted [propext, Quot.sound]
Z80.C71_selection_ascending [propext, Classical.choice, Quot.sound]
Z80.C71_selection_descending [propext, Classical.choice, Quot.sound]
Z80.C71_insertion_ascending [propext, Classical.choice, Quot.sound]
Z80.C71_insertion_descending [propext, Classical.choice, Quot.sound]
Z80.C72_fibonacci [propext, Classical.choice, Quot.sound]
Z80.C72_documented [propext, Classical.choice, Quot.sound]
Z80.C73_multiplies [propext, Classical.choice, Quot.sound]
Z80.C73_prints [propext, Classical.choice, Quot.sound]
Z80.C74_sum [propext, Classical.choice, Quot.sound]
Z80.C74_difference [propext, Classical.choice, Quot.sound]
Z80.C75_execute_next [propext, Classical.choice, Quot.sound]
Z80.C75_execute_instruction [propext, Classical.choice, Quot.sound]
Z80.C75_prefixes [propext, Quot.sound]
Z80.Ral.Screen.C76_line [propext, Classical.choice, Quot.sound]
Z80.Ral.Screen.C76_lines [propext, Classical.choice, Quot.sound]
Z80.Ral.Screen.C76_preview [propext, Classical.choice, Quot.sound]
Z80.Ral.Screen.C76_complete [propext, Classical.choice, Quot.sound]
Z80.Ral.Screen.C76_execute_next [propext, Classical.choice, Quot.sound]
Z80.C77_alike [propext, Classical.choice, Quot.sound]
Z80.C77_shift [propext, Classical.choice, Quot.sound]
Z80.C77_width [propext, Classical.choice, Quot.sound]
Z80.C77_signed [propext, Classical.choice, Quot.sound]
Z80.C77_jobs [propext, Classical.choice, Quot.sound]
Z80.C77_frames [propext, Classical.choice, Quot.sound]
Z80.Ral.Runner.C78_proper [propext, Quot.sound]
Z80.Ral.Runner.C78_messages [propext, Quot.sound]
Z80.Ral.Runner.C79_ends_partial [propext, Classical.choice, Quot.sound]
Z80.Ral.Runner.C79_default_partial [propext, Classical.choice, Quot.sound]
Z80.Ral.Runner.C79_refuted_presses [propext, Classical.choice, Quot.sound]
Z80.Ral.Runner.C79_refuted_hang [propext, Classical.choice, Quot.sound]
Z80.C80_columns [propext, Classical.choice, Quot.sound]
Z80.C80_records [propext, Classical.choice, Quot.sound]
Z80.C80_executed [propext, Classical.choice, Quot.sound]
Z80.C80_canon [propext, Quot.sound]
Z80.C80_ed [propext, Quot.sound]
Z80.C80_xcb [propext, Quot.sound]
Z80.C80_ld [propext, Quot.sound]
Z80.C81_skip [propext, Quot.sound]
Z80.C81_limit [propext, Quot.sound]
Z80.C81_next [propext, Quot.sound]
Z80.C82_executed [propext, Classical.choice, Quot.sound]
Z80.C82_halt_partial [propext, Classical.choice, Quot.sound]
Z80.C82_same_partial [propext, Classical.choice, Quot.sound]
Z80.C82_refuted [propext, Classical.choice, Quot.sound]
Z80.C82_refuted_stuck [propext, Quot.sound]
Z80.C83_quick_ascending_partial [propext, Classical.choice, Quot.sound]
Z80.C83_quick_descending_partial [propext, Classical.choice, Quot.sound]
Z80.C83_beyond_partial [propext, Classical.choice, Quot.sound]
Z80.C83_ordered_partial [propext, Classical.choice, Quot.sound]
Z80.C83_refuted_ascending [propext, Classical.choice, Quot.sound]
Z80.C83_refuted_descending [propext, Classical.choice, Quot.sound]
Z80.C84_shuffle [propext, Classical.choice, Quot.sound]
Z80.C84_random [propext, Classical.choice, Quot.sound]
Z80.C84_period [propext, Classical.choice, Quot.sound]
Z80.C84_determined [propext, Quot.sound]
Z80.C84_same [propext, Classical.choice, Quot.sound]
Z80.C84_sorted [propext, Quot.sound]
Z80.Ral.Terminal.C85_decodes [propext, Quot.sound]
Z80.Ral.Terminal.C85_unambiguous [propext, Quot.sound]
Z80.Ral.Terminal.C85_performs [propext, Quot.sound]
Z80.Ral.Terminal.C85_stream [propext]
Z80.Ral.Terminal.C85_no_panic [propext, Quot.sound]
Z80.Ral.Terminal.C85_reset [propext]
Z80.Ral.Terminal.C85_echo [propext]
Z80.Ral.Terminal.C85_typed [propext, Quot.sound]
Z80.Ral.Terminal.C85_menu [propext, Quot.sound]
Z80.Ral.Terminal.C85_keys [propext, Quot.sound]
Z80.Ral.Terminal.C85_leaves [propext]
Z80.Ral.Terminal.C85_ends [propext, Quot.sound]
Z80.Ral.Terminal.C85_shown [propext, Quot.sound]
Z80.Ral.Terminal.C86_clock_partial [propext, Classical.choice, Quot.sound]
Z80.Ral.Terminal.C86_refuted []
Z80.Ral.Terminal.C86_default []
Z80.Embedded.C87_main [propext, Classical.choice, Quot.sound]
Z80.Embedded.C87_embedded [propext, Classical.choice, Quot.sound]
Z80.Embedded.C87_zero [propext, Classical.choice, Quot.sound]
Z80.Kernel.C88_frame [propext, Classical.choice, Quot.sound]
Z80.Kernel.C88_none [propext, Classical.choice, Quot.sound]
Z80.Kernel.C88_input_full [propext, Classical.choice, Quot.sound]
Z80.Kernel.C88_input_empty [propext, Classical.choice, Quot.sound]
Z80.Kernel.C88_output_none [propext, Classical.choice, Quot.sound]
Z80.Kernel.C88_output_some [propext, Classical.choice, Quot.sound]
Z80.Kernel.C88_nmi [propext, Classical.choice, Quot.sound]
Z80.Kernel.C88_forward [propext, Classical.choice, Quot.sound]
Z80.Kernel.C88_rom [propext, Quot.sound]
Z80.Kernel.C88_room [propext, Quot.sound]
Z80.Kernel.C88_key [propext, Classical.choice, Quot.sound]
Z80.Kernel.C88_print [propext, Classical.choice, Quot.sound]
Z80.Kernel.C88_witness [propext, Classical.choice, Quot.sound]
Z80.Kernel.C89_none [propext, Classical.choice, Quot.sound]
Z80.Kernel.C89_one [propext, Classical.choice, Quot.sound]
Z80.Kernel.C89_two [propext, Classical.choice, Quot.sound]
Z80.Kernel.C89_received [propext, Quot.sound]
Z80.Kernel.C89_rom [propext, Quot.sound]
Z80.Kernel.C89_witness [propext, Classical.choice, Quot.sound]
Z80.Kernel.C90_full [propext, Classical.choice, Quot.sound]
Z80.Kernel.C90_later [propext, Classical.choice, Quot.sound]
Z80.Kernel.C90_now [propext, Classical.choice, Quot.sound]
Z80.Kernel.C90_rom [propext, Quot.sound]
Z80.Kernel.C90_witness [propext, Classical.choice, Quot.sound]
