# Axioms per theorem

Output of `#print axioms`, written by `tools/gen_axioms.py`.

| property | theorem | axioms |
|---|---|---|
| C01 | `Svgdom.C01_forest` | propext, Classical.choice, Quot.sound |
| C01 | `Svgdom.C01_forest_unique` | propext, Classical.choice, Quot.sound |
| C01 | `Svgdom.C01_next_prev` | propext, Classical.choice, Quot.sound |
| C01 | `Svgdom.C01_neighbours` | propext, Classical.choice, Quot.sound |
| C02 | `Svgdom.C02_append` | propext, Classical.choice, Quot.sound |
| C02 | `Svgdom.C02_prepend` | propext, Classical.choice, Quot.sound |
| C02 | `Svgdom.C02_insertAfter` | propext, Classical.choice, Quot.sound |
| C02 | `Svgdom.C02_insertBefore` | propext, Classical.choice, Quot.sound |
| C03 | `Svgdom.C03_detach` | propext, Classical.choice, Quot.sound |
| C03 | `Svgdom.C03_isolated` | propext, Classical.choice, Quot.sound |
| C03 | `Svgdom.C03_no_panic` | propext, Classical.choice, Quot.sound |
| C03 | `Svgdom.C03_idempotent` | propext, Classical.choice, Quot.sound |
| C04 | `Svgdom.C04_refuted` | propext, Quot.sound |
| C04 | `Svgdom.C04_append_partial` | propext, Classical.choice, Quot.sound |
| C04 | `Svgdom.C04_prepend_partial` | propext, Classical.choice, Quot.sound |
| C04 | `Svgdom.C04_insertAfter_partial` | propext, Classical.choice, Quot.sound |
| C04 | `Svgdom.C04_insertBefore_partial` | propext, Classical.choice, Quot.sound |
| C04 | `Svgdom.C04_fresh_partial` | propext, Classical.choice, Quot.sound |
| C05 | `Svgdom.C05_refuted` | propext, Quot.sound |
| C05 | `Svgdom.C05_endless_refuted` | propext, Quot.sound |
| C05 | `Svgdom.C05_acyclic_partial` | propext, Classical.choice, Quot.sound |
| C05 | `Svgdom.C05_step_partial` | propext, Classical.choice, Quot.sound |
| C05 | `Svgdom.C05_sharp_partial` | propext, Classical.choice, Quot.sound |
| C06 | `Svgdom.C06_children` | propext, Quot.sound |
| C06 | `Svgdom.C06_loop` | propext, Classical.choice, Quot.sound |
| C07 | `Svgdom.C07_traverse` | propext, Classical.choice, Quot.sound |
| C07 | `Svgdom.C07_descendants` | propext, Classical.choice, Quot.sound |
| C07 | `Svgdom.C07_edges_balanced` | propext, Classical.choice, Quot.sound |
| C08 | `Svgdom.C08_siblings` | propext, Classical.choice, Quot.sound |
| C08 | `Svgdom.C08_ancestors` | propext, Classical.choice, Quot.sound |
| C09 | `Svgdom.C09_refuted` | propext, Quot.sound |
| C09 | `Svgdom.C09_stale_refuted` | propext, Quot.sound |
| C09 | `Svgdom.C09_panic_refuted` | propext, Classical.choice, Quot.sound |
| C09 | `Svgdom.C09_root_partial` | propext, Classical.choice, Quot.sound |
| C10 | `Svgdom.C10_moves_keep_data` | propext, Classical.choice, Quot.sound |
| C10 | `Svgdom.C10_edits_keep_tree` | propext, Classical.choice, Quot.sound |
| C11 | `Svgdom.C11_unique_names` | propext, Classical.choice, Quot.sound |
| C12 | `Svgdom.C12_set` | propext, Classical.choice, Quot.sound |
| C12 | `Svgdom.C12_get` | propext, Classical.choice, Quot.sound |
| C13 | `Svgdom.C13_remove` | propext, Classical.choice, Quot.sound |
| C13 | `Svgdom.C13_gone` | propext, Classical.choice, Quot.sound |
| C13 | `Svgdom.C13_absent` | propext, Quot.sound |
| C13 | `Svgdom.C13_unlinks` | propext, Classical.choice, Quot.sound |
| C14 | `Svgdom.C14_keeps` | propext, Classical.choice, Quot.sound |
| C14 | `Svgdom.C14_cases` | propext, Quot.sound |
| C15 | `Svgdom.C15_refused` | propext, Classical.choice, Quot.sound |
| C15 | `Svgdom.C15_unchanged` | propext, Classical.choice, Quot.sound |
| C15 | `Svgdom.C15_accepted` | propext, Classical.choice, Quot.sound |
| C16 | `Svgdom.C16_count` | propext, Classical.choice, Quot.sound |
| C16 | `Svgdom.C16_alive` | propext, Classical.choice, Quot.sound |
| C16 | `Svgdom.C16_uses_count` | propext, Classical.choice, Quot.sound |
| C16 | `Svgdom.C16_is_used` | propext, Classical.choice, Quot.sound |
| C17 | `Svgdom.C17_no_panic` | propext, Classical.choice, Quot.sound |
| C18 | `Svgdom.C18_no_self_no_mutual` | propext, Classical.choice, Quot.sound |
| C19 | `Svgdom.C19_refuted` | propext, Classical.choice, Quot.sound |
| C19 | `Svgdom.C19_svg_partial` | propext, Classical.choice, Quot.sound |
| C19 | `Svgdom.C19_remove_partial` | propext, Classical.choice, Quot.sound |
| C20 | `Svgdom.C20_remove` | propext, Classical.choice, Quot.sound |
| C20 | `Svgdom.C20_getters` | propext, Classical.choice, Quot.sound |
| C20 | `Svgdom.C20_needs_acyclic` | propext, Quot.sound |
| C21 | `Svgdom.C21_drain` | propext, Classical.choice, Quot.sound |
| C22 | `Svgdom.C22_copy` | propext, Classical.choice, Quot.sound |
| C22 | `Svgdom.C22_panics` | propext, Classical.choice, Quot.sound |
| C22 | `Svgdom.C22_root` | propext, Classical.choice, Quot.sound |
| C23 | `Svgdom.C23_deep` | propext, Classical.choice, Quot.sound |
| C23 | `Svgdom.C23_panics` | propext, Classical.choice, Quot.sound |
| C24 | `Svgdom.C24_detached` | propext, Classical.choice, Quot.sound |
| C24 | `Svgdom.C24_slots` | propext, Classical.choice, Quot.sound |
| C24 | `Svgdom.C24_create` | propext, Classical.choice, Quot.sound |
| C24 | `Svgdom.C24_reuse` | propext, Classical.choice, Quot.sound |
| C24 | `Svgdom.C24_kept` | propext, Classical.choice, Quot.sound |
| C24 | `Svgdom.C24_remove` | propext, Classical.choice, Quot.sound |
| C24 | `Svgdom.C24_never_back` | propext, Classical.choice, Quot.sound |
| C24 | `Svgdom.C24_key` | propext, Classical.choice, Quot.sound |
| C25 | `Svgdom.C25_drop` | propext, Classical.choice, Quot.sound |
| C25 | `Svgdom.C25_acyclic` | propext, Classical.choice, Quot.sound |
| C25 | `Svgdom.C25_needs_acyclic` | propext, Quot.sound |
| C26 | `Svgdom.C26_svg_element` | propext, Classical.choice, Quot.sound |
| C27 | `Svgdom.C27_element_roundtrip` | propext, Quot.sound |
| C27 | `Svgdom.C27_attribute_roundtrip` | propext, Quot.sound |
| C28 | `Svgdom.C28_element_total` | propext, Quot.sound |
| C28 | `Svgdom.C28_attribute_total` | propext, Quot.sound |
| C28 | `Svgdom.C28_element_sound` | propext, Quot.sound |
| C28 | `Svgdom.C28_attribute_sound` | propext, Quot.sound |
| C28 | `Svgdom.C28_element_injective` | propext, Quot.sound |
| C28 | `Svgdom.C28_attribute_injective` | propext, Quot.sound |
| C29 | `Svgdom.C29_elements` | propext, Quot.sound |
| C29 | `Svgdom.C29_documented` | propext, Quot.sound |
| C29 | `Svgdom.C29_other_names` | propext |
| C29 | `Svgdom.C29_attributes` | propext, Quot.sound |
| C29 | `Svgdom.C29_fill_stroke` | propext, Quot.sound |
| C30 | `Svgdom.C30_default` | propext, Quot.sound |
| C30 | `Svgdom.C30_set` | propext, Classical.choice, Quot.sound |
| C31 | `Svgdom.C31_starts_with_svg` | propext, Classical.choice, Quot.sound |
| C31 | `Svgdom.C31_no_svg` | propext, Classical.choice, Quot.sound |
| C31 | `Svgdom.C31_svg` | propext, Classical.choice, Quot.sound |
| C32 | `Svgdom.C32_mirror` | propext, Classical.choice, Quot.sound |
| C32 | `Svgdom.C32_final` | propext, Classical.choice, Quot.sound |
| C33 | `Svgdom.C33_attributes` | propext, Classical.choice, Quot.sound |
| C33 | `Svgdom.C33_no_style` | propext, Classical.choice, Quot.sound |
| C34 | `Svgdom.C34_element` | propext, Classical.choice, Quot.sound |
| C34 | `Svgdom.C34_document_partial` | propext, Classical.choice, Quot.sound |
| C34 | `Svgdom.C34_refuted` | propext, Classical.choice, Quot.sound |
| C34 | `Svgdom.C34_exact` | propext, Classical.choice, Quot.sound |
| C35 | `Svgdom.C35_resolution` | propext, Classical.choice, Quot.sound |
| C35 | `Svgdom.C35_missing` | propext, Quot.sound |
| C35 | `Svgdom.C35_found` | propext, Quot.sound |
| C35 | `Svgdom.C35_self` | propext |
| C35 | `Svgdom.C35_mutual` | propext |
| C36 | `Svgdom.C36_returns` | propext, Classical.choice, Quot.sound |
| C36 | `Svgdom.C36_parser` | propext, Classical.choice, Quot.sound |
| C37 | `Svgdom.C37_no_empty` | propext, Classical.choice, Quot.sound |
| C37 | `Svgdom.C37_tree` | propext, Classical.choice, Quot.sound |
| C37 | `Svgdom.C37_rest` | propext, Classical.choice, Quot.sound |
| C38 | `Svgdom.C38_default` | propext, Quot.sound |
| C38 | `Svgdom.C38_preserve` | propext |
| C38 | `Svgdom.C38_preserve_length` | propext |
| C38 | `Svgdom.C38_clean` | propext, Quot.sound |
| C38 | `Svgdom.C38_no_double` | propext, Quot.sound |
| C38 | `Svgdom.C38_idempotent` | propext, Quot.sound |
| C39 | `Svgdom.C39_clean_partial` | propext, Classical.choice, Quot.sound |
| C39 | `Svgdom.C39_untouched_partial` | propext, Classical.choice, Quot.sound |
| C39 | `Svgdom.C39_refuted` | propext, Classical.choice, Quot.sound |
| C39 | `Svgdom.C39_iff` | propext, Classical.choice, Quot.sound |
| C40 | `Svgdom.C40_attributes` | propext, Classical.choice, Quot.sound |
| C41 | `Svgdom.C41_number` | propext, Classical.choice, Quot.sound |
| C41 | `Svgdom.C41_document` | propext, Classical.choice, Quot.sound |
| C42 | `Svgdom.C42_values` | propext, Classical.choice, Quot.sound |
| C42 | `Svgdom.C42_references` | propext, Classical.choice, Quot.sound |
| C42 | `Svgdom.C42_rule_ignored` | propext, Quot.sound |
| C42 | `Svgdom.C42_style_ignored` | propext, Quot.sound |
| C43 | `Svgdom.C43_rule_partial` | propext, Quot.sound |
| C43 | `Svgdom.C43_style_refuted` | propext, Classical.choice, Quot.sound |
| C44 | `Svgdom.C44_no_panic` | propext, Classical.choice, Quot.sound |
| C44 | `Svgdom.C44_reachable` | propext, Classical.choice, Quot.sound |
| C44 | `Svgdom.C44_tree` | propext, Classical.choice, Quot.sound |
| C44 | `Svgdom.C44_members` | propext, Classical.choice, Quot.sound |
| C44 | `Svgdom.C44_links` | propext, Classical.choice, Quot.sound |
| C45 | `Svgdom.C45_markup` | propext, Classical.choice, Quot.sound |
| C45 | `Svgdom.C45_balanced` | propext, Classical.choice, Quot.sound |
| C45 | `Svgdom.C45_order` | propext, Classical.choice, Quot.sound |
| C46 | `Svgdom.C46_attributes` | propext, Classical.choice, Quot.sound |
| C46 | `Svgdom.C46_count` | propext, Classical.choice, Quot.sound |
| C47 | `Svgdom.C47_exact` | propext, Classical.choice, Quot.sound |
| C47 | `Svgdom.C47_declared` | propext, Classical.choice, Quot.sound |
| C47 | `Svgdom.C47_no_undeclared` | propext, Classical.choice, Quot.sound |
| C47 | `Svgdom.C47_needs_svg` | propext, Classical.choice, Quot.sound |
| C48 | `Svgdom.C48_roundtrip` | propext, Classical.choice, Quot.sound |
| C48 | `Svgdom.C48_verbatim` | propext, Quot.sound |
| C48 | `Svgdom.C48_written` | propext, Classical.choice, Quot.sound |
| C49 | `Svgdom.C49_current` | propext |
| C49 | `Svgdom.C49_setId` | propext, Quot.sound |
| C50 | `Svgdom.C50_uses_partial` | propext, Classical.choice, Quot.sound |
| C50 | `Svgdom.C50_refuted` | propext, Classical.choice, Quot.sound |
| C50 | `Svgdom.C50_exact` | propext, Classical.choice, Quot.sound |
| C51 | `Svgdom.C51_content_partial` | propext, Classical.choice, Quot.sound |
| C51 | `Svgdom.C51_refuted` | propext, Classical.choice, Quot.sound |
| C51 | `Svgdom.C51_collapsed` | propext, Classical.choice, Quot.sound |
| C51 | `Svgdom.C51_iff` | propext, Classical.choice, Quot.sound |
| C52 | `Svgdom.C52_preserve_partial` | propext, Classical.choice, Quot.sound |
| C52 | `Svgdom.C52_refuted` | propext, Classical.choice, Quot.sound |
| C52 | `Svgdom.C52_used_partial` | propext, Classical.choice, Quot.sound |
| C53 | `Svgdom.C53_ink` | propext, Classical.choice, Quot.sound |
| C53 | `Svgdom.C53_removed` | propext, Classical.choice, Quot.sound |
| C54 | `Svgdom.C54_mode_partial` | propext, Classical.choice, Quot.sound |
| C54 | `Svgdom.C54_refuted` | propext, Classical.choice, Quot.sound |
| C54 | `Svgdom.C54_used` | propext, Classical.choice, Quot.sound |
| C55 | `Svgdom.C55_default` | propext, Classical.choice, Quot.sound |
| C55 | `Svgdom.C55_preserve` | propext, Classical.choice, Quot.sound |
| C56 | `Svgdom.C56_surroundings_partial` | propext, Quot.sound |
| C56 | `Svgdom.C56_previous_refuted` | propext, Quot.sound |
| C56 | `Svgdom.C56_first_child_refuted` | propext, Classical.choice, Quot.sound |
| C57 | `Svgdom.C57_types` | propext, Classical.choice, Quot.sound |
| C57 | `Svgdom.C57_offset` | propext, Classical.choice, Quot.sound |
| C58 | `Svgdom.C58_default_partial` | propext, Classical.choice, Quot.sound |
| C58 | `Svgdom.C58_refuted` | propext, Quot.sound |
| C59 | `Svgdom.C59_inherit_partial` | propext, Quot.sound |
| C59 | `Svgdom.C59_refuted` | propext, Quot.sound |
| C60 | `Svgdom.C60_trim` | propext, Quot.sound |
| C60 | `Svgdom.C60_trimmed` | propext, Quot.sound |
| C60 | `Svgdom.C60_unicode` | propext, Quot.sound |
| C60 | `Svgdom.C60_white` | propext, Classical.choice, Quot.sound |
| C61 | `Svgdom.C61_partial` | propext, Classical.choice, Quot.sound |
| C61 | `Svgdom.C61_refuted` | propext, Classical.choice, Quot.sound |
| C61 | `Svgdom.C61_needed` | propext, Classical.choice, Quot.sound |
| C61 | `Svgdom.C61_parsed_iff` | propext, Classical.choice, Quot.sound |
| C62 | `Svgdom.C62_faithful_partial` | propext, Classical.choice, Quot.sound |
| C62 | `Svgdom.C62_text_exact` | propext, Classical.choice, Quot.sound |
| C62 | `Svgdom.C62_parsed_text_exact` | propext, Classical.choice, Quot.sound |
| C62 | `Svgdom.C62_before_text` | propext, Classical.choice, Quot.sound |
| C62 | `Svgdom.C62_partial` | propext, Classical.choice, Quot.sound |
| C62 | `Svgdom.C62_refuted` | propext, Classical.choice, Quot.sound |
| C62 | `Svgdom.C62_no_blank` | propext, Classical.choice, Quot.sound |
| C62 | `Svgdom.C62_parsed_partial` | propext, Classical.choice, Quot.sound |
| C62 | `Svgdom.C62_text_partial` | propext, Classical.choice, Quot.sound |
| C62 | `Svgdom.C62_parsed_text_partial` | propext, Classical.choice, Quot.sound |
| C62 | `Svgdom.C62_text_refuted` | propext, Classical.choice, Quot.sound |
| C63 | `Svgdom.C63_first` | propext, Classical.choice, Quot.sound |
| C64 | `Svgdom.C64_normal` | propext, Classical.choice, Quot.sound |
| C64 | `Svgdom.C64_idempotent_partial` | propext, Classical.choice, Quot.sound |
| C64 | `Svgdom.C64_refuted` | propext, Classical.choice, Quot.sound |
| C65 | `Svgdom.C65_comes_back` | propext, Classical.choice, Quot.sound |
| C66 | `Svgdom.C66_returns` | propext, Classical.choice, Quot.sound |
| C66 | `Svgdom.C66_attributes` | propext, Classical.choice, Quot.sound |
| C66 | `Svgdom.C66_other_partial` | propext, Classical.choice, Quot.sound |
| C66 | `Svgdom.C66_tag_partial` | propext, Classical.choice, Quot.sound |
| C66 | `Svgdom.C66_debug_partial` | propext, Classical.choice, Quot.sound |
| C66 | `Svgdom.C66_writer_partial` | propext, Classical.choice, Quot.sound |
| C66 | `Svgdom.C66_refuted` | propext, Quot.sound |
| C67 | `Svgdom.C67_iff` | propext, Classical.choice, Quot.sound |
| C67 | `Svgdom.C67_partial` | propext, Classical.choice, Quot.sound |
| C67 | `Svgdom.C67_refuted` | propext, Classical.choice, Quot.sound |
| C67 | `Svgdom.C67_parsed` | propext, Classical.choice, Quot.sound |
| C68 | `Svgdom.C68_partial` | propext, Classical.choice, Quot.sound |
| C68 | `Svgdom.C68_refuted` | propext, Classical.choice, Quot.sound |
| C68 | `Svgdom.C68_iff` | propext, Classical.choice, Quot.sound |
| C69 | `Svgdom.C69_value` | propext, Quot.sound |
| C69 | `Svgdom.C69_effect` | propext, Classical.choice, Quot.sound |
| C69 | `Svgdom.C69_refuted` | propext, Quot.sound |
| C69 | `Svgdom.C69_partial` | propext, Classical.choice, Quot.sound |
| C69 | `Svgdom.C69_attributes_iff` | propext, Classical.choice, Quot.sound |
| C69 | `Svgdom.C69_attribute_iff` | propext, Classical.choice, Quot.sound |
| C69 | `Svgdom.C69_linked_iff` | propext, Classical.choice, Quot.sound |
| C70 | `Svgdom.C70_tree` | propext, Classical.choice, Quot.sound |
| C70 | `Svgdom.C70_links` | propext, Classical.choice, Quot.sound |
| C70 | `Svgdom.C70_unlink` | propext, Classical.choice, Quot.sound |
| C70 | `Svgdom.C70_partial` | propext, Classical.choice, Quot.sound |
| C70 | `Svgdom.C70_key_partial` | propext, Classical.choice, Quot.sound |
| C70 | `Svgdom.C70_remove_partial` | propext, Classical.choice, Quot.sound |
| C70 | `Svgdom.C70_refuted` | propext, Classical.choice, Quot.sound |
| C70 | `Svgdom.C70_wrong_node` | propext, Classical.choice, Quot.sound |
| C71 | `Svgdom.C71_refuted` | propext, Classical.choice, Quot.sound |
| C71 | `Svgdom.C71_partial` | propext, Classical.choice, Quot.sound |
| C71 | `Svgdom.C71_iff` | propext, Classical.choice, Quot.sound |
| C72 | `Svgdom.C72_refuted` | propext, Classical.choice, Quot.sound |
| C72 | `Svgdom.C72_partial` | propext, Classical.choice, Quot.sound |
| C72 | `Svgdom.C72_cycle` | propext, Classical.choice, Quot.sound |
| C72 | `Svgdom.C72_parsed` | propext, Classical.choice, Quot.sound |
| C73 | `Svgdom.C73_refuted` | propext, Classical.choice, Quot.sound |
| C73 | `Svgdom.C73_partial` | propext, Classical.choice, Quot.sound |
| C73 | `Svgdom.C73_iff` | propext, Classical.choice, Quot.sound |
| C74 | `Svgdom.C74_children` | propext, Classical.choice, Quot.sound |
| C74 | `Svgdom.C74_detach` | propext, Classical.choice, Quot.sound |
| C74 | `Svgdom.C74_move` | propext, Classical.choice, Quot.sound |
| C74 | `Svgdom.C74_remove` | propext, Classical.choice, Quot.sound |
| C75 | `Svgdom.C75_detach` | propext, Classical.choice, Quot.sound |
| C75 | `Svgdom.C75_refuted` | propext, Classical.choice, Quot.sound |
| C75 | `Svgdom.C75_partial` | propext, Quot.sound |
| C76 | `Svgdom.C76_refuted` | propext, Classical.choice, Quot.sound |
| C76 | `Svgdom.C76_links_partial` | propext, Classical.choice, Quot.sound |
| C76 | `Svgdom.C76_iff` | propext, Classical.choice, Quot.sound |
| C77 | `Svgdom.C77_refuted` | propext, Classical.choice, Quot.sound |
| C77 | `Svgdom.C77_partial` | propext, Classical.choice, Quot.sound |
| C77 | `Svgdom.C77_iff` | propext, Classical.choice, Quot.sound |
| C78 | `Svgdom.C78_append` | propext, Classical.choice, Quot.sound |
| C78 | `Svgdom.C78_prepend` | propext, Classical.choice, Quot.sound |
| C78 | `Svgdom.C78_insertAfter` | propext, Classical.choice, Quot.sound |
| C78 | `Svgdom.C78_insertBefore` | propext, Classical.choice, Quot.sound |
| C78 | `Svgdom.C78_detach` | propext, Classical.choice, Quot.sound |
| C79 | `Svgdom.C79_exact` | propext, Classical.choice, Quot.sound |
| C80 | `Svgdom.C80_used_partial` | propext, Quot.sound |
| C80 | `Svgdom.C80_whole_partial` | propext, Quot.sound |
| C80 | `Svgdom.C80_refuted` | propext, Classical.choice, Quot.sound |
| C81 | `Svgdom.C81_detach` | propext, Quot.sound |
| C81 | `Svgdom.C81_append` | propext, Classical.choice, Quot.sound |
| C81 | `Svgdom.C81_prepend` | propext, Classical.choice, Quot.sound |
| C81 | `Svgdom.C81_insertAfter` | propext, Classical.choice, Quot.sound |
| C81 | `Svgdom.C81_insertBefore` | propext, Classical.choice, Quot.sound |
| C81 | `Svgdom.C81_documented` | propext, Classical.choice, Quot.sound |
| C82 | `Svgdom.C82_call` | propext, Classical.choice, Quot.sound |
| C82 | `Svgdom.C82_drop` | propext, Classical.choice, Quot.sound |
| C82 | `Svgdom.C82_remove` | propext, Classical.choice, Quot.sound |
| C82 | `Svgdom.C82_drop_stored` | propext, Quot.sound |
| C83 | `Svgdom.C83_node` | propext, Classical.choice, Quot.sound |
| C83 | `Svgdom.C83_copy` | propext, Classical.choice, Quot.sound |
| C83 | `Svgdom.C83_copy_deep` | propext, Classical.choice, Quot.sound |
| C83 | `Svgdom.C83_drain` | propext, Classical.choice, Quot.sound |
| C83 | `Svgdom.C83_remove_partial` | propext, Classical.choice, Quot.sound |
| C83 | `Svgdom.C83_set_partial` | propext, Classical.choice, Quot.sound |
| C83 | `Svgdom.C83_refuted` | propext, Quot.sound |
| C84 | `Svgdom.C84_same_calls` | propext, Classical.choice, Quot.sound |
| C84 | `Svgdom.C84_copy` | propext, Classical.choice, Quot.sound |
| C84 | `Svgdom.C84_deep` | propext, Classical.choice, Quot.sound |
| C85 | `Svgdom.C85_refuted` | propext, Quot.sound |
| C85 | `Svgdom.C85_data_partial` | propext, Quot.sound |
| C85 | `Svgdom.C85_copy_iff` | propext, Classical.choice, Quot.sound |
| C86 | `Svgdom.C86_text_mut` | propext, Quot.sound |
| C86 | `Svgdom.C86_refuted` | propext, Quot.sound |
| C86 | `Svgdom.C86_partial` | propext, Quot.sound |
| C86 | `Svgdom.C86_remove_partial` | propext, Classical.choice, Quot.sound |
| C86 | `Svgdom.C86_iff` | propext, Classical.choice, Quot.sound |
| C87 | `Svgdom.C87_exact` | propext, Classical.choice, Quot.sound |
| C87 | `Svgdom.C87_refuted` | propext, Classical.choice, Quot.sound |
| C87 | `Svgdom.C87_refuted_parsed` | propext, Classical.choice, Quot.sound |
| C87 | `Svgdom.C87_partial` | propext, Classical.choice, Quot.sound |
| C88 | `Svgdom.C88_refuted` | propext, Classical.choice, Quot.sound |
| C88 | `Svgdom.C88_tag_partial` | propext, Quot.sound |
| C88 | `Svgdom.C88_attribute_partial` | propext, Classical.choice, Quot.sound |
| C88 | `Svgdom.C88_parsed` | propext, Classical.choice, Quot.sound |
| C89 | `Svgdom.C89_refuted` | propext, Classical.choice, Quot.sound |
| C89 | `Svgdom.C89_blind` | propext, Quot.sound |
| C89 | `Svgdom.C89_partial` | propext, Quot.sound |
| C90 | `Svgdom.C90_dom` | propext, Classical.choice, Quot.sound |
| C90 | `Svgdom.C90_partial` | propext, Classical.choice, Quot.sound |
| C90 | `Svgdom.C90_refuted` | propext, Classical.choice, Quot.sound |
| C90 | `Svgdom.C90_refuted_instruction` | propext, Classical.choice, Quot.sound |
| C90 | `Svgdom.C90_attributes` | propext, Classical.choice, Quot.sound |
| C91 | `Svgdom.C91_remove` | propext, Classical.choice, Quot.sound |
| C91 | `Svgdom.C91_copy` | propext, Classical.choice, Quot.sound |
| C91 | `Svgdom.C91_drain` | propext, Classical.choice, Quot.sound |
| C91 | `Svgdom.C91_parse` | propext, Quot.sound |
| C91 | `Svgdom.C91_no_bound_parse` | propext, Classical.choice, Quot.sound |
| C91 | `Svgdom.C91_no_bound` | propext, Classical.choice, Quot.sound |
| C91 | `Svgdom.C91_text` | propext, Classical.choice, Quot.sound |
| C91 | `Svgdom.C91_svg` | propext, Classical.choice, Quot.sound |
| C91 | `Svgdom.C91_no_bound_svg` | propext, Classical.choice, Quot.sound |
| C92 | `Svgdom.C92_same` | propext, Classical.choice, Quot.sound |
| C92 | `Svgdom.C92_partial` | propext, Classical.choice, Quot.sound |
| C92 | `Svgdom.C92_faithful_partial` | propext, Classical.choice, Quot.sound |
| C92 | `Svgdom.C92_refuted` | propext, Classical.choice, Quot.sound |
| C93 | `Svgdom.C93_step` | propext, Classical.choice, Quot.sound |
| C93 | `Svgdom.C93_answer` | propext, Classical.choice, Quot.sound |
| C93 | `Svgdom.C93_history` | propext, Classical.choice, Quot.sound |
| C93 | `Svgdom.C93_run` | propext, Classical.choice, Quot.sound |
| C93 | `Svgdom.C93_observe` | propext, Classical.choice, Quot.sound |
| C93 | `Svgdom.C93_picture` | propext, Classical.choice, Quot.sound |
| C93 | `Svgdom.C93_written` | propext, Classical.choice, Quot.sound |
| C94 | `Svgdom.C94_exact` | propext, Classical.choice, Quot.sound |
| C94 | `Svgdom.C94_built` | propext, Classical.choice, Quot.sound |
| C94 | `Svgdom.C94_freed` | propext, Classical.choice, Quot.sound |
| C95 | `Svgdom.C95_parse` | propext, Classical.choice, Quot.sound |
| C95 | `Svgdom.C95_unique` | propext, Classical.choice, Quot.sound |
| C95 | `Svgdom.C95_picture` | propext, Classical.choice, Quot.sound |
| C95 | `Svgdom.C95_machine` | propext, Classical.choice, Quot.sound |
| C95 | `Svgdom.C95_calls` | propext, Classical.choice, Quot.sound |
| C95 | `Svgdom.C95_users` | propext, Classical.choice, Quot.sound |
| C95 | `Svgdom.C95_written` | propext, Classical.choice, Quot.sound |
| C96 | `Svgdom.C96_step` | propext, Classical.choice, Quot.sound |
| C96 | `Svgdom.C96_history` | propext, Classical.choice, Quot.sound |
| C96 | `Svgdom.C96_run` | propext, Classical.choice, Quot.sound |
| C96 | `Svgdom.C96_observe` | propext, Quot.sound |
| C96 | `Svgdom.C96_same` | propext, Classical.choice, Quot.sound |
| C96 | `Svgdom.C96_parsed` | propext, Classical.choice, Quot.sound |
| C96 | `Svgdom.C96_calls` | propext, Classical.choice, Quot.sound |
| C97 | `Svgdom.C97_history` | propext, Classical.choice, Quot.sound |
| C97 | `Svgdom.C97_panics` | propext, Classical.choice, Quot.sound |
| C97 | `Svgdom.C97_observe` | propext, Classical.choice, Quot.sound |
| C97 | `Svgdom.C97_answer` | propext, Classical.choice, Quot.sound |
| C97 | `Svgdom.C97_written` | propext, Classical.choice, Quot.sound |
| C97 | `Svgdom.C97_run` | propext, Classical.choice, Quot.sound |
| C97 | `Svgdom.C97_parsed` | propext, Classical.choice, Quot.sound |
| C97 | `Svgdom.C97_any` | propext, Classical.choice, Quot.sound |
| C98 | `Svgdom.C98_refuted` | propext, Classical.choice, Quot.sound |
| C98 | `Svgdom.C98_history` | propext, Classical.choice, Quot.sound |
| C98 | `Svgdom.C98_partial` | propext, Classical.choice, Quot.sound |
| C98 | `Svgdom.C98_new` | propext |
| C98 | `Svgdom.C98_parsed` | propext, Classical.choice, Quot.sound |
| C98 | `Svgdom.C98_drop` | propext, Classical.choice, Quot.sound |
| C98 | `Svgdom.C98_bound` | propext, Classical.choice, Quot.sound |
| C98 | `Svgdom.C98_sharp` | propext, Classical.choice, Quot.sound |
| C99 | `Svgdom.C99_permuted` | propext, Classical.choice, Quot.sound |
| C99 | `Svgdom.C99_partial` | propext, Classical.choice, Quot.sound |
| C99 | `Svgdom.C99_parses` | propext, Classical.choice, Quot.sound |
| C99 | `Svgdom.C99_observe` | propext, Classical.choice, Quot.sound |
| C99 | `Svgdom.C99_written` | propext, Classical.choice, Quot.sound |
| C99 | `Svgdom.C99_used_partial` | propext, Classical.choice, Quot.sound |
| C99 | `Svgdom.C99_refuted` | propext, Classical.choice, Quot.sound |
| C100 | `Svgdom.C100_identifier` | propext, Classical.choice, Quot.sound |
| C100 | `Svgdom.C100_collision` | propext |
| C100 | `Svgdom.C100_elements` | propext, Classical.choice, Quot.sound |
| C100 | `Svgdom.C100_attributes` | propext, Classical.choice, Quot.sound |
| C100 | `Svgdom.C100_order` | propext, Classical.choice, Quot.sound |
| C100 | `Svgdom.C100_sorted` | propext, Classical.choice, Quot.sound |
| C100 | `Svgdom.C100_sorted_elements` | propext, Classical.choice, Quot.sound |
| C101 | `Svgdom.C101_form` | propext, Classical.choice, Quot.sound |
| C101 | `Svgdom.C101_written` | propext, Classical.choice, Quot.sound |
| C101 | `Svgdom.C101_stored` | propext, Classical.choice, Quot.sound |
| C101 | `Svgdom.C101_conversions` | propext |
| C101 | `Svgdom.C101_refers` | propext, Classical.choice, Quot.sound |
| C101 | `Svgdom.C101_refuted` | propext, Quot.sound |
| C102 | `Svgdom.C102_parse` | propext, Classical.choice, Quot.sound |
| C102 | `Svgdom.C102_remove` | propext, Classical.choice, Quot.sound |
| C102 | `Svgdom.C102_drain` | propext, Classical.choice, Quot.sound |
| C102 | `Svgdom.C102_error` | propext, Classical.choice, Quot.sound |
| C102 | `Svgdom.C102_document` | propext, Classical.choice, Quot.sound |
| C102 | `Svgdom.C102_memory` | propext, Classical.choice, Quot.sound |
| C102 | `Svgdom.C102_drop` | propext, Classical.choice, Quot.sound |
| C103 | `Svgdom.C103_partial` | propext, Classical.choice, Quot.sound |
| C103 | `Svgdom.C103_refuted` | propext, Classical.choice, Quot.sound |
| C103 | `Svgdom.C103_refuted_parsed` | propext, Classical.choice, Quot.sound |
| C104 | `Svgdom.C104_undo` | propext, Classical.choice, Quot.sound |
| C104 | `Svgdom.C104_partial` | propext, Classical.choice, Quot.sound |
| C104 | `Svgdom.C104_refuted` | propext, Classical.choice, Quot.sound |
| C105 | `Svgdom.C105_run` | propext, Classical.choice, Quot.sound |
| C105 | `Svgdom.C105_element` | propext, Classical.choice, Quot.sound |
| C105 | `Svgdom.C105_text` | propext, Classical.choice, Quot.sound |
| C105 | `Svgdom.C105_nbsp` | propext, Classical.choice, Quot.sound |
| C105 | `Svgdom.C105_neighbours` | propext, Classical.choice, Quot.sound |
| C106 | `Svgdom.C106_shuffled` | propext, Classical.choice, Quot.sound |
| C106 | `Svgdom.C106_sorted` | propext, Classical.choice, Quot.sound |
| C106 | `Svgdom.C106_sharp` | propext, Classical.choice, Quot.sound |
| C106 | `Svgdom.C106_order` | propext, Classical.choice, Quot.sound |
| C107 | `Svgdom.C107_moves` | propext, Classical.choice, Quot.sound |
| C107 | `Svgdom.C107_runs` | propext, Classical.choice, Quot.sound |
| C107 | `Svgdom.C107_same_place` | propext, Classical.choice, Quot.sound |
| C108 | `Svgdom.C108_same_calls` | propext, Quot.sound |
| C108 | `Svgdom.C108_remove_partial` | propext, Classical.choice, Quot.sound |
| C108 | `Svgdom.C108_drain_partial` | propext, Classical.choice, Quot.sound |
| C108 | `Svgdom.C108_refuted` | propext, Quot.sound |
| C109 | `Svgdom.C109_same_calls` | propext, Quot.sound |
| C109 | `Svgdom.C109_copy` | propext, Classical.choice, Quot.sound |
| C109 | `Svgdom.C109_deep` | propext, Classical.choice, Quot.sound |
| C110 | `Svgdom.C110_spread_partial` | propext, Classical.choice, Quot.sound |
| C110 | `Svgdom.C110_faithful_spread_partial` | propext, Classical.choice, Quot.sound |
| C110 | `Svgdom.C110_partial` | propext, Classical.choice, Quot.sound |
| C110 | `Svgdom.C110_back_partial` | propext, Classical.choice, Quot.sound |
| C110 | `Svgdom.C110_faithful_partial` | propext, Classical.choice, Quot.sound |
| C110 | `Svgdom.C110_refuted` | propext, Classical.choice, Quot.sound |
| C110 | `Svgdom.C110_refuted_cdata` | propext, Classical.choice, Quot.sound |
| C110 | `Svgdom.C110_refuted_markup` | propext, Classical.choice, Quot.sound |
| C111 | `Svgdom.C111_effect` | propext, Quot.sound |
| C111 | `Svgdom.C111_iff` | propext, Classical.choice, Quot.sound |
| C111 | `Svgdom.C111_partial` | propext, Classical.choice, Quot.sound |
| C111 | `Svgdom.C111_refuted` | propext, Quot.sound |
| C112 | `Svgdom.C112_partial` | propext, Classical.choice, Quot.sound |
| C112 | `Svgdom.C112_parsed_partial` | propext, Classical.choice, Quot.sound |
| C112 | `Svgdom.C112_settled_iff` | propext, Classical.choice, Quot.sound |
| C112 | `Svgdom.C112_text_partial` | propext, Classical.choice, Quot.sound |
| C112 | `Svgdom.C112_text_parsed_partial` | propext, Classical.choice, Quot.sound |
| C112 | `Svgdom.C112_refuted` | propext, Classical.choice, Quot.sound |
| C112 | `Svgdom.C112_no_bound` | propext, Classical.choice, Quot.sound |
| C113 | `Svgdom.C113_no_css` | propext, Quot.sound |
| C113 | `Svgdom.C113_document` | propext, Classical.choice, Quot.sound |
| C113 | `Svgdom.C113_same` | propext, Classical.choice, Quot.sound |
| C114 | `Svgdom.C114_forever` | propext, Classical.choice, Quot.sound |
| C114 | `Svgdom.C114_list` | propext, Classical.choice, Quot.sound |
| C114 | `Svgdom.C114_order` | propext, Classical.choice, Quot.sound |
| C114 | `Svgdom.C114_perm` | propext, Classical.choice, Quot.sound |
| C114 | `Svgdom.C114_again` | propext, Classical.choice, Quot.sound |
| C114 | `Svgdom.C114_drain` | propext, Classical.choice, Quot.sound |
| C115 | `Svgdom.C115_write` | propext, Classical.choice, Quot.sound |
| C115 | `Svgdom.C115_move` | propext, Classical.choice, Quot.sound |
| C115 | `Svgdom.C115_detach` | propext, Classical.choice, Quot.sound |
| C116 | `Svgdom.C116_deep_iff` | propext, Classical.choice, Quot.sound |
| C116 | `Svgdom.C116_copy_iff` | propext, Classical.choice, Quot.sound |
| C116 | `Svgdom.C116_refuted` | propext, Classical.choice, Quot.sound |
| C117 | `Svgdom.C117_written_partial` | propext, Classical.choice, Quot.sound |
| C117 | `Svgdom.C117_debug` | propext, Classical.choice, Quot.sound |
| C117 | `Svgdom.C117_refuted` | propext, Classical.choice, Quot.sound |
| C118 | `Svgdom.C118_detach` | propext, Classical.choice, Quot.sound |
| C118 | `Svgdom.C118_remove` | propext, Classical.choice, Quot.sound |
| C119 | `Svgdom.C119_others_partial` | propext, Classical.choice, Quot.sound |
| C119 | `Svgdom.C119_elements_partial` | propext, Classical.choice, Quot.sound |
| C119 | `Svgdom.C119_parsed` | propext, Classical.choice, Quot.sound |
| C119 | `Svgdom.C119_refuted` | propext, Quot.sound |
| C119 | `Svgdom.C119_text_refuted` | propext, Quot.sound |
| C120 | `Svgdom.C120_call` | propext, Quot.sound |
| C120 | `Svgdom.C120_history` | propext, Quot.sound |
| C120 | `Svgdom.C120_parse` | propext, Classical.choice, Quot.sound |
| C120 | `Svgdom.C120_write` | propext, Quot.sound |
| C121 | `Svgdom.C121_parent` | propext, Classical.choice, Quot.sound |
| C121 | `Svgdom.C121_top` | propext, Classical.choice, Quot.sound |
| C121 | `Svgdom.C121_element` | propext, Quot.sound |
| C121 | `Svgdom.C121_debug` | propext, Classical.choice, Quot.sound |
| C121 | `Svgdom.C121_parsed` | propext, Classical.choice, Quot.sound |
