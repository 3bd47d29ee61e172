{
 "claims": [
  {
   "property": "C01",
   "status": "proved",
   "theorems": [
    "Verif.Props.escaped_text_reads_back",
    "Verif.Props.escaped_text_before_markup"
   ],
   "note": ""
  },
  {
   "property": "C02",
   "status": "partial",
   "theorems": [
    "Verif.Props.attribute_value_reads_back_iff_partial",
    "Verif.Props.attribute_value_breaks_out"
   ],
   "note": "refuted: XMLString leaves double quotes; the partial theorem gives the exact guard (iff no double quote)"
  },
  {
   "property": "C03",
   "status": "partial",
   "theorems": [
    "Verif.Props.escaped_text_ascii_iff_partial",
    "Verif.Props.escaped_text_not_ascii"
   ],
   "note": "refuted at U+0080 (test is ord(c)>128); exact guard proved as an iff"
  },
  {
   "property": "C04",
   "status": "proved",
   "theorems": [
    "Verif.Props.item_comment_well_formed"
   ],
   "note": ""
  },
  {
   "property": "C05",
   "status": "proved",
   "theorems": [
    "Verif.Props.path_segment_round_trip",
    "Verif.Props.path_segment_safe",
    "Verif.Props.decode_malformed_escape_loses_char"
   ],
   "note": ""
  },
  {
   "property": "C06",
   "status": "partial",
   "theorems": [
    "Verif.Props.hrefs_distinct_partial",
    "Verif.Props.hrefs_collide"
   ],
   "note": "refuted for names above U+00FF; proved for 8-bit names and any history"
  },
  {
   "property": "C07",
   "status": "partial",
   "theorems": [
    "Verif.Props.dump_stays_inside_partial",
    "Verif.Props.generated_files_inside",
    "Verif.Props.dump_escapes"
   ],
   "note": "refuted for hand-made hrefs; proved for every href the converter generates and for every href with safe segments"
  },
  {
   "property": "C08",
   "status": "proved",
   "theorems": [
    "Verif.Props.resource_ids_unique",
    "Verif.Props.free_resource_id_kept",
    "Verif.Props.addAll_succeeds",
    "Verif.Props.addAll_type_error"
   ],
   "note": ""
  },
  {
   "property": "C09",
   "status": "partial",
   "theorems": [
    "Verif.Props.set_identifier_legal",
    "Verif.Props.fix_identifier_idempotent",
    "Verif.Props.fix_identifier_keeps_legal",
    "Verif.Props.resource_ids_legal_partial",
    "Verif.Props.generated_id_empty"
   ],
   "note": "refuted: an auto-generated identifier can be empty; guarded version proved"
  },
  {
   "property": "C10",
   "status": "proved",
   "theorems": [
    "Verif.Props.file_names_not_reused",
    "Verif.Props.existing_file_name_protected",
    "Verif.Props.file_extension_preserved",
    "Verif.Props.free_file_name_kept"
   ],
   "note": ""
  },
  {
   "property": "C100",
   "status": "partial",
   "theorems": [
    "Verif.Props.slider_bounds_partial",
    "Verif.Props.pRegions_shown",
    "Verif.Props.slider_kept_refuted"
   ],
   "note": "bounds, steps and orientation proved; refuted for the rest: the start value and the labelling of steps are lost, and without these attributes there is an internal failure"
  },
  {
   "property": "C101",
   "status": "partial",
   "theorems": [
    "Verif.Props.feedback_kept_partial",
    "Verif.Props.rubric_kept_partial",
    "Verif.Props.objectives_kept_partial",
    "Verif.Props.extractTexts_seen",
    "Verif.Props.std_wrapped_all",
    "Verif.Props.rubric_seen_by",
    "Verif.Props.feedback_styles",
    "Verif.Props.feedback_hypotheses",
    "Verif.Props.feedback_kept_refuted"
   ],
   "note": "proved without emphasised text of an unknown type, which is lost; objectives for all with a line break or image are an internal failure"
  },
  {
   "property": "C102",
   "status": "partial",
   "theorems": [
    "Verif.Props.presentation_fails_partial",
    "Verif.Props.presentation_fails_hypotheses",
    "Verif.Props.presentation_fails_refuted",
    "Verif.Props.slider_kept_refuted",
    "Verif.Props.regions_kept_refuted"
   ],
   "note": "proved for renderings that suit their response, sliders with their attributes and regions given by whole numbers; refuted otherwise"
  },
  {
   "property": "C103",
   "status": "proved",
   "theorems": [
    "Verif.Props.text_question_kept",
    "Verif.Props.blanks_collected_partial",
    "Verif.Props.text_question_hypotheses"
   ],
   "note": "text questions in one field; for questions with several blanks the same is part of blanks_collected_partial"
  },
  {
   "property": "C104",
   "status": "partial",
   "theorems": [
    "Verif.Props.feedback_displayed",
    "Verif.Props.feedback_displayed_partial",
    "Verif.Props.feedback_displayed_hypotheses",
    "Verif.Props.feedback_displayed_refuted"
   ],
   "note": "proved for every rule up to conversion of identifiers and exactly for names that migration keeps; refuted for names with characters that are replaced, which may be confused"
  },
  {
   "property": "C105",
   "status": "proved",
   "theorems": [
    "Verif.Props.pages_partition",
    "Verif.Props.page_unlimited",
    "Verif.Props.pages_hypotheses"
   ],
   "note": ""
  },
  {
   "property": "C106",
   "status": "partial",
   "theorems": [
    "Verif.Props.client_gets_all",
    "Verif.Props.next_page_partial",
    "Verif.Props.next_page_refuted",
    "Verif.Props.top_kept_partial",
    "Verif.Props.top_refuted"
   ],
   "note": "the client gets every entity once: proved; refuted: a last page that is exactly full has a next link, to an empty page, and a $top larger than the server's page is forgotten in the next link, so that more is returned than asked for"
  },
  {
   "property": "C107",
   "status": "proved",
   "theorems": [
    "Verif.Props.page_order",
    "Verif.Props.plain_order_refuted",
    "Verif.Props.page_order_hypotheses"
   ],
   "note": "proved of paged listing; the listing without pages leaves ties in the order of the store (plain_order_refuted)"
  },
  {
   "property": "C108",
   "status": "partial",
   "theorems": [
    "Verif.Props.insert_read_partial",
    "Verif.Props.update_read",
    "Verif.Props.select_read",
    "Verif.Props.store_ok",
    "Verif.Props.store_hypotheses",
    "Verif.Props.insert_selected_refuted"
   ],
   "note": "proved for updates, for reading with a selection, and for inserting entities with all properties; refuted for inserting an entity with a selection, whose values are read back as those of other properties"
  },
  {
   "property": "C109",
   "status": "partial",
   "theorems": [
    "Verif.Props.insert_new_partial",
    "Verif.Props.next_key_free",
    "Verif.Props.insert_new_hypotheses",
    "Verif.Props.insert_filtered_refuted"
   ],
   "note": "proved for generated keys and collections without a filter; refuted through a collection with a filter, which replaces an entity hidden by the filter"
  },
  {
   "property": "C11",
   "status": "partial",
   "theorems": [
    "Verif.Props.manifest_not_overwritten_partial",
    "Verif.Props.manifest_overwritten"
   ],
   "note": "refuted for an item called imsmanifest; guarded version proved"
  },
  {
   "property": "C110",
   "status": "partial",
   "theorems": [
    "Verif.Props.select_same_partial",
    "Verif.Props.count_partial",
    "Verif.Props.select_same_hypotheses",
    "Verif.Props.select_hides_refuted"
   ],
   "note": "proved when filter and ordering look only at selected properties and keys; refuted otherwise: unselected properties are null when the filter and the order look at them, while the count ignores the selection"
  },
  {
   "property": "C111",
   "status": "partial",
   "theorems": [
    "Verif.Props.member_listed",
    "Verif.Props.nav_member_partial",
    "Verif.Props.nav_member_refuted"
   ],
   "note": "proved for entity sets with any options and for linked entities without a filter; refuted for linked entities with a filter, whose test is the wrong way round"
  },
  {
   "property": "C112",
   "status": "partial",
   "theorems": [
    "Verif.Props.streams_partial",
    "Verif.Props.streams_step",
    "Verif.Props.streams_hypotheses",
    "Verif.Props.stream_refuted"
   ],
   "note": "proved for histories that write streams to existing entities; refuted for a stream written through an object of a deleted entity, which the next entity with this key inherits"
  },
  {
   "property": "C113",
   "status": "proved",
   "theorems": [
    "Verif.Props.links_both_ways",
    "Verif.Props.links_hypotheses"
   ],
   "note": ""
  },
  {
   "property": "C114",
   "status": "partial",
   "theorems": [
    "Verif.Props.no_dangling_partial",
    "Verif.Props.no_dangling_hypotheses",
    "Verif.Props.dangling_refuted"
   ],
   "note": "proved for all histories, failures included, in which no object of a deleted entity is used; refuted with such an object: linking from it and replacing by it are accepted"
  },
  {
   "property": "C115",
   "status": "partial",
   "theorems": [
    "Verif.Props.multiplicity_partial",
    "Verif.Props.multiplicity_hypotheses",
    "Verif.Props.multiplicity_refuted"
   ],
   "note": "proved in every history for ends with multiplicity 1 and for ends with 0..1 that have no navigation property; refuted for the others: replacing does not check the other end"
  },
  {
   "property": "C116",
   "status": "partial",
   "theorems": [
    "Verif.Props.required_partial",
    "Verif.Props.required_hypotheses",
    "Verif.Props.required_refuted",
    "Verif.Props.failed_insert_refuted",
    "Verif.Props.delete_self_refuted"
   ],
   "note": "proved when every operation succeeds or has no effect, no object of a deleted entity is used and no association of a set with itself requires its second end; refuted otherwise: an insertion whose binding fails leaves the entity behind without its link, and in such an association deletion follows the wrong direction"
  },
  {
   "property": "C117",
   "status": "partial",
   "theorems": [
    "Verif.Props.delete_depth",
    "Verif.Props.delete_exact_partial",
    "Verif.Props.delete_succeeds",
    "Verif.Props.delete_hypotheses",
    "Verif.Props.delete_fails_refuted",
    "Verif.Props.delete_self_refuted",
    "Verif.Props.delete_silent_refuted"
   ],
   "note": "termination proved; exactness proved for every deletion that succeeds; success proved for entities nothing requires; refuted: with requirements between dependents a deletion fails half way, an entity at the required end of an association without navigation properties can never be deleted, and associations of a set with itself are followed in the wrong direction"
  },
  {
   "property": "C118",
   "status": "partial",
   "theorems": [
    "Verif.Props.failures_partial",
    "Verif.Props.failed_insert_refuted",
    "Verif.Props.delete_fails_refuted"
   ],
   "note": "proved for linking, unlinking, replacing, refused insertions and operations on entities that do not exist; refuted for insertions with bindings that fail and for deletions that fail half way"
  },
  {
   "property": "C119",
   "status": "partial",
   "theorems": [
    "Verif.Props.threads_both_ways",
    "Verif.Props.threads_links_kept",
    "Verif.Props.link_steps",
    "Verif.Props.threads_serial_partial",
    "Verif.Props.threads_refuted"
   ],
   "note": "agreement of both directions and presence of reported links proved for all schedules; multiplicities proved for uninterrupted threads; refuted for the others: two threads both check before either adds"
  },
  {
   "property": "C12",
   "status": "proved",
   "theorems": [
    "Verif.Props.response_conditions_meaning"
   ],
   "note": ""
  },
  {
   "property": "C120",
   "status": "proved",
   "theorems": [
    "Verif.Props.link_exact",
    "Verif.Props.unlink_exact",
    "Verif.Props.replace_exact",
    "Verif.Props.exact_hypotheses"
   ],
   "note": ""
  },
  {
   "property": "C121",
   "status": "partial",
   "theorems": [
    "Verif.Props.insert_bound_partial",
    "Verif.Props.update_bound_partial",
    "Verif.Props.bound_hypotheses",
    "Verif.Props.bound_self_refuted"
   ],
   "note": "proved for bindings of any depth when the entity is not bound to itself and no object of a deleted entity is used; refuted for an entity bound to itself, whose binding a later one in the opposite direction removes"
  },
  {
   "property": "C122",
   "status": "partial",
   "theorems": [
    "Verif.Props.options_partial",
    "Verif.Props.version_partial",
    "Verif.Props.options_hypotheses",
    "Verif.Props.nocomment_refuted",
    "Verif.Props.experimental_refuted",
    "Verif.Props.version_refuted"
   ],
   "note": "proved for all options but --nocomment and, apart from inputs, --version; refuted: --nocomment has no effect, --x, which the help text names, is taken for an input (the code looks for -x), and --version writes an empty package if --cpout= precedes it"
  },
  {
   "property": "C123",
   "status": "partial",
   "theorems": [
    "Verif.Props.output_exact",
    "Verif.Props.consent_partial",
    "Verif.Props.consent_hypotheses",
    "Verif.Props.consent_refuted"
   ],
   "note": "proved for the command; refuted for the window, which does not ask"
  },
  {
   "property": "C124",
   "status": "partial",
   "theorems": [
    "Verif.Props.inputs_partial",
    "Verif.Props.once_partial",
    "Verif.Props.inputs_hypotheses",
    "Verif.Props.twice_refuted"
   ],
   "note": "proved when all names can be opened, and once for one input or for inputs that are different entries of the current directory; refuted for overlapping inputs, whose files are converted twice"
  },
  {
   "property": "C125",
   "status": "partial",
   "theorems": [
    "Verif.Props.broken_partial",
    "Verif.Props.notice_exact",
    "Verif.Props.broken_hypotheses",
    "Verif.Props.stops_refuted",
    "Verif.Props.raises_refuted",
    "Verif.Props.status_refuted"
   ],
   "note": "proved for files that are not well-formed; refuted for names that do not exist and for files at which an element class raises an exception, both of which abort the run before anything is written, and for the exit status, which is always 1"
  },
  {
   "property": "C126",
   "status": "partial",
   "theorems": [
    "Verif.Props.extensions_exact",
    "Verif.Props.separate_partial",
    "Verif.Props.separate_hypotheses",
    "Verif.Props.separate_refuted"
   ],
   "note": "exactly which conversions recognise extensions is proved; refuted: a conversion with --qmdextensions changes the table that later ones use"
  },
  {
   "property": "C127",
   "status": "partial",
   "theorems": [
    "Verif.Props.comment_partial",
    "Verif.Props.comments_partial",
    "Verif.Props.comment_hypotheses",
    "Verif.Props.truncated_refuted",
    "Verif.Props.elsewhere_refuted"
   ],
   "note": "proved for comments of root elements that are closed, at most one in each; refuted: the comment of a file that is cut off is lost although its items are kept, and comments elsewhere are dropped"
  },
  {
   "property": "C128",
   "status": "partial",
   "theorems": [
    "Verif.Props.ends_partial",
    "Verif.Props.ends_exact",
    "Verif.Props.endless_refuted",
    "Verif.Props.ends_hypotheses"
   ],
   "note": "proved for text without control characters other than tabs and folded lines, and exactly for text without brackets and quotes; refuted: a control character makes every reader run for ever"
  },
  {
   "property": "C129",
   "status": "partial",
   "theorems": [
    "Verif.Props.quote_exact",
    "Verif.Props.quoted_word_exact",
    "Verif.Props.value_word_partial",
    "Verif.Props.empty_value_refuted",
    "Verif.Props.quote_hypotheses"
   ],
   "note": "proved for quoted text of octets and for values that are not empty; refuted: an empty value is written as nothing, and an unclosed quote loses a character"
  },
  {
   "property": "C13",
   "status": "proved",
   "theorems": [
    "Verif.Props.variable_names_distinct",
    "Verif.Props.no_internal_error",
    "Verif.Props.redeclaration_refused",
    "Verif.Props.response_lookup_stable",
    "Verif.Props.outcome_lookup_stable"
   ],
   "note": "outcome lookups are stable until the next resprocessing section, which by design starts a new set of outcomes"
  },
  {
   "property": "C130",
   "status": "partial",
   "theorems": [
    "Verif.Props.media_partial",
    "Verif.Props.media_refuted",
    "Verif.Props.media_hypotheses"
   ],
   "note": "proved for parameters with values that are not empty; refuted for empty values"
  },
  {
   "property": "C131",
   "status": "partial",
   "theorems": [
    "Verif.Props.quality_exact",
    "Verif.Props.quality_read_exact",
    "Verif.Props.accept_partial",
    "Verif.Props.accept_refuted",
    "Verif.Props.accept_hypotheses"
   ],
   "note": "proved for parameters with values that are not empty and not called q; refuted for empty values, for a parameter q and for empty list elements"
  },
  {
   "property": "C132",
   "status": "partial",
   "theorems": [
    "Verif.Props.select_partial",
    "Verif.Props.select_refuted",
    "Verif.Props.order_exact",
    "Verif.Props.negotiate_partial",
    "Verif.Props.select_hypotheses"
   ],
   "note": "proved for ranges that follow the grammar; refuted for wildcards with parameters, which are ignored"
  },
  {
   "property": "C133",
   "status": "partial",
   "theorems": [
    "Verif.Props.token_exact",
    "Verif.Props.charset_exact",
    "Verif.Props.encoding_partial",
    "Verif.Props.encoding_refuted",
    "Verif.Props.partial_match_exact",
    "Verif.Props.language_partial",
    "Verif.Props.language_refuted",
    "Verif.Props.tokens_read_exact",
    "Verif.Props.token_hypotheses"
   ],
   "note": "proved for tokens and character sets, for encodings with at most one candidate called identity, and for languages without repeated ranges; refuted otherwise; if no language is acceptable the text None is selected"
  },
  {
   "property": "C134",
   "status": "partial",
   "theorems": [
    "Verif.Props.product_order",
    "Verif.Props.dotted_exact",
    "Verif.Props.modifier_before",
    "Verif.Props.continued_after",
    "Verif.Props.same_version_refuted",
    "Verif.Props.product_examples",
    "Verif.Props.http_version_order"
   ],
   "note": "the order is proved; refuted: 1, 01 and 1. are equal"
  },
  {
   "property": "C135",
   "status": "partial",
   "theorems": [
    "Verif.Props.version_exact",
    "Verif.Props.product_exact",
    "Verif.Props.products_exact",
    "Verif.Props.language_exact",
    "Verif.Props.entity_tag_exact",
    "Verif.Props.content_range_exact",
    "Verif.Props.version_error_refuted",
    "Verif.Props.tags_hypotheses"
   ],
   "note": "reading back is proved for all of them; refuted: text that is not a version raises NameError"
  },
  {
   "property": "C136",
   "status": "partial",
   "theorems": [
    "Verif.Props.keys_partial",
    "Verif.Props.media_key_refuted",
    "Verif.Props.keys_hypotheses"
   ],
   "note": "proved for all but media types; refuted for these, which have no hash"
  },
  {
   "property": "C137",
   "status": "partial",
   "theorems": [
    "Verif.Props.date_exact",
    "Verif.Props.two_digit_partial",
    "Verif.Props.date_sound",
    "Verif.Props.weekday_exact",
    "Verif.Props.zone_refuted",
    "Verif.Props.two_digit_refuted",
    "Verif.Props.date_hypotheses"
   ],
   "note": "proved for the two formats with a full year, and for 1990 to 2089 with two digits; refuted for times in other zones, which are written as GMT, for other years with two digits, and for dates that do not exist, which are DateTimeErrors"
  },
  {
   "property": "C138",
   "status": "partial",
   "theorems": [
    "Verif.Props.errors_partial",
    "Verif.Props.date_errors_partial",
    "Verif.Props.errors_refuted",
    "Verif.Props.errors_hypotheses"
   ],
   "note": "proved for text without brackets and quotes, except versions and dates; refuted: an unclosed bracket is a ValueError, a backslash at the end a TypeError, a malformed version a NameError, a date that does not exist a DateTimeError"
  },
  {
   "property": "C139",
   "status": "proved",
   "theorems": [
    "Verif.Props.literals_read",
    "Verif.Props.literal_unique",
    "Verif.Props.literals_whole",
    "Verif.Props.literals_hypotheses"
   ],
   "note": "the values of floats are exact decimals; which texts are dates with a zone is a parameter"
  },
  {
   "property": "C14",
   "status": "partial",
   "theorems": [
    "Verif.Props.used_variables_declared_partial",
    "Verif.Props.undeclared_fake_response",
    "Verif.Props.undeclared_feedback"
   ],
   "note": "refuted twice (split-up response dropped by the reset; FEEDBACK not re-declared); guarded version proved for every history"
  },
  {
   "property": "C140",
   "status": "partial",
   "theorems": [
    "Verif.Props.literals_written_partial",
    "Verif.Props.literals_written_refuted",
    "Verif.Props.written_hypotheses"
   ],
   "note": "refuted for times and dates with a fraction of a second: the fraction is not written. Proved for all other values; the text of finite floats is a parameter and is not covered"
  },
  {
   "property": "C141",
   "status": "partial",
   "theorems": [
    "Verif.Props.expressions_read_partial",
    "Verif.Props.expressions_whole",
    "Verif.Props.expression_unique",
    "Verif.Props.expressions_read_refuted",
    "Verif.Props.expressions_only_refuted",
    "Verif.Props.expressions_hypotheses"
   ],
   "note": "refuted: not and a sign in brackets are refused, two prefix operators in a row and one after / lose an operand, a minus before names that begin with inf or nan and properties named like literals are refused; unclosed brackets are accepted. Proved for all other expressions"
  },
  {
   "property": "C142",
   "status": "partial",
   "theorems": [
    "Verif.Props.expressions_written_partial",
    "Verif.Props.expressions_written_refuted",
    "Verif.Props.printed_hypotheses"
   ],
   "note": "refuted: right operand of the same level, negated number literals, paths from negations, casts with one operand. Proved for all other trees"
  },
  {
   "property": "C143",
   "status": "partial",
   "theorems": [
    "Verif.Props.expression_errors_partial",
    "Verif.Props.expression_errors_refuted",
    "Verif.Props.errors_witness"
   ],
   "note": "refuted for a time whose fraction has no digits (TypeError); proved: it ends, and only ValueError and TypeError occur"
  },
  {
   "property": "C144",
   "status": "proved",
   "theorems": [
    "Verif.Props.common_type",
    "Verif.Props.common_type_laws",
    "Verif.Props.promotion_keeps",
    "Verif.Props.common_type_example"
   ],
   "note": "rounding of Decimals and doubles is a parameter with the properties in Spec/ODataEval.Faithful; SByte belongs to no promotion in the code"
  },
  {
   "property": "C145",
   "status": "partial",
   "theorems": [
    "Verif.Props.integers_partial",
    "Verif.Props.division_partial",
    "Verif.Props.remainder_range",
    "Verif.Props.negative_integer",
    "Verif.Props.integers_refuted",
    "Verif.Props.division_refuted",
    "Verif.Props.integers_example"
   ],
   "note": "refuted: two Bytes or Int16s cannot be added at all, and Int64 division goes through floats: 9007199254740993L div 1L is 9007199254740992L. Proved: sums, differences, products and negatives are exact or refused; div and mod are exact for operands below 2^53"
  },
  {
   "property": "C146",
   "status": "partial",
   "theorems": [
    "Verif.Props.ne_is_not_eq",
    "Verif.Props.eq_symmetric",
    "Verif.Props.relations_mirrored",
    "Verif.Props.numbers_compared_partial",
    "Verif.Props.strings_compared",
    "Verif.Props.times_compared",
    "Verif.Props.null_compared_partial",
    "Verif.Props.compared_refuted",
    "Verif.Props.compared_example"
   ],
   "note": "refuted for nulls of dates and strings (a date is greater than null and the first day of year 1 equals it), and for Bytes, Int16s and Booleans, which cannot be compared. Proved for the rest; numbers of a floating-point and another type are compared after rounding and not covered"
  },
  {
   "property": "C147",
   "status": "proved",
   "theorems": [
    "Verif.Props.truth_tables",
    "Verif.Props.truth_null",
    "Verif.Props.truth_error",
    "Verif.Props.truth_example"
   ],
   "note": ""
  },
  {
   "property": "C148",
   "status": "proved",
   "theorems": [
    "Verif.Props.parts_found",
    "Verif.Props.text_measured",
    "Verif.Props.text_replaced",
    "Verif.Props.text_cut",
    "Verif.Props.text_trimmed",
    "Verif.Props.dates_taken_apart",
    "Verif.Props.text_null",
    "Verif.Props.text_example"
   ],
   "note": "upper and lower case and white space of Unicode are parameters; replacing the empty string and negative positions are not covered"
  },
  {
   "property": "C149",
   "status": "proved",
   "theorems": [
    "Verif.Props.round_decimal",
    "Verif.Props.round_float",
    "Verif.Props.round_integer",
    "Verif.Props.nearest_unique",
    "Verif.Props.round_example"
   ],
   "note": "floats above 2^53 are not covered (they are integers)"
  },
  {
   "property": "C15",
   "status": "partial",
   "theorems": [
    "Verif.Props.limits_enforced_partial",
    "Verif.Props.zero_minimum_ignored",
    "Verif.Props.fractional_minimum_weakened",
    "Verif.Props.text_limit_fails"
   ],
   "note": "refuted: a limit of 0 is ignored, fractional limits of integer outcomes are truncated, and a limit on a non-numeric outcome makes processing fail; proved for every non-zero faithful limit of numeric outcomes"
  },
  {
   "property": "C150",
   "status": "partial",
   "theorems": [
    "Verif.Props.evaluation_errors_partial",
    "Verif.Props.evaluation_errors_refuted",
    "Verif.Props.evaluation_errors_example"
   ],
   "note": "refuted: ValueError, InvalidOperation, KeyError, TypeError and AttributeError come through. Proved: with known simple properties and without member access only the first two do, and every value fits its type"
  },
  {
   "property": "C151",
   "status": "proved",
   "theorems": [
    "Verif.Props.value_depends",
    "Verif.Props.value_constant",
    "Verif.Props.depends_example"
   ],
   "note": ""
  },
  {
   "property": "C152",
   "status": "proved",
   "theorems": [
    "Verif.Props.expand_reads",
    "Verif.Props.expand_only",
    "Verif.Props.select_reads",
    "Verif.Props.select_only",
    "Verif.Props.options_redundant",
    "Verif.Props.expand_example",
    "Verif.Props.select_example"
   ],
   "note": ""
  },
  {
   "property": "C153",
   "status": "proved",
   "theorems": [
    "Verif.Props.expand_written",
    "Verif.Props.select_written",
    "Verif.Props.options_canonical",
    "Verif.Props.written_example"
   ],
   "note": "the empty dictionary is excluded: it is written as an empty text, which is not read; the readers never return it"
  },
  {
   "property": "C154",
   "status": "partial",
   "theorems": [
    "Verif.Props.order_reads_partial",
    "Verif.Props.order_written_partial",
    "Verif.Props.order_errors",
    "Verif.Props.order_example",
    "Verif.Props.order_only_refuted"
   ],
   "note": "refuted: other texts are accepted, as in 1asc, and TypeError is raised for times with a bare point. Proved: what is read for the rules of the specification, reading back for the printable trees of C142, termination"
  },
  {
   "property": "C155",
   "status": "partial",
   "theorems": [
    "Verif.Props.path_reads_partial",
    "Verif.Props.path_root",
    "Verif.Props.path_refused",
    "Verif.Props.path_example",
    "Verif.Props.path_rule_refuted"
   ],
   "note": "exactly which paths are accepted and how they are read is proved; refuted: $metadata and $batch are accepted after a collection, $links and $count without one, and an unknown option raises ValueError"
  },
  {
   "property": "C156",
   "status": "partial",
   "theorems": [
    "Verif.Props.uri_below",
    "Verif.Props.uri_elsewhere",
    "Verif.Props.uri_whole",
    "Verif.Props.uri_example",
    "Verif.Props.uri_prefix_refuted"
   ],
   "note": "proved for paths below the prefix and paths that do not begin with it; refuted: a path that goes on after the text of the prefix without a slash is taken to be below it. Relative URIs are only shown by example"
  },
  {
   "property": "C157",
   "status": "partial",
   "theorems": [
    "Verif.Props.segment_name",
    "Verif.Props.segment_empty",
    "Verif.Props.segment_single_partial",
    "Verif.Props.segment_keys_partial",
    "Verif.Props.segment_example",
    "Verif.Props.segment_hypotheses",
    "Verif.Props.segment_keys_refuted"
   ],
   "note": "proved for literals without commas and equals signs, as they stand in the URI; refuted: a comma or equals sign in a key is an error, escapes in keys are not undone"
  },
  {
   "property": "C158",
   "status": "partial",
   "theorems": [
    "Verif.Props.key_written_partial",
    "Verif.Props.key_written_example",
    "Verif.Props.key_written_refuted"
   ],
   "note": "proved for single keys whose text needs no escapes; refuted: the string 'a b' comes back as 'a%20b', keys of two parts are an error"
  },
  {
   "property": "C159",
   "status": "proved",
   "theorems": [
    "Verif.Props.query_reads",
    "Verif.Props.query_written",
    "Verif.Props.numbers_read",
    "Verif.Props.inlinecount_read",
    "Verif.Props.inlinecount_example",
    "Verif.Props.text_read",
    "Verif.Props.text_overlong",
    "Verif.Props.query_example"
   ],
   "note": "what the values of filters, orders and so on are is C141 to C154; repeated options are not covered"
  },
  {
   "property": "C16",
   "status": "partial",
   "theorems": [
    "Verif.Props.setvar_float",
    "Verif.Props.setvar_integer_partial",
    "Verif.Props.setvar_integer_divide_fails",
    "Verif.Props.setvar_integer_overflow",
    "Verif.Props.setvar_unknown_fails",
    "Verif.Props.setvar_set_text",
    "Verif.Props.setvar_space_fails"
   ],
   "note": "refuted: Divide on an integer outcome always fails; proved for all actions on float outcomes and all others on integer outcomes"
  },
  {
   "property": "C160",
   "status": "proved",
   "theorems": [
    "Verif.Props.options_allowed",
    "Verif.Props.options_refused",
    "Verif.Props.options_example"
   ],
   "note": ""
  },
  {
   "property": "C161",
   "status": "partial",
   "theorems": [
    "Verif.Props.uri_errors_partial",
    "Verif.Props.option_errors",
    "Verif.Props.uri_errors_refuted"
   ],
   "note": "refuted: ValueError and TypeError come through, and a control character in $format makes the constructor run for ever. Proved: nothing else is raised, it ends unless there is a $format, and bad values of the other options are InvalidSystemQueryOption but for times with a bare point"
  },
  {
   "property": "C162",
   "status": "partial",
   "theorems": [
    "Verif.Props.param_reads_partial",
    "Verif.Props.param_missing",
    "Verif.Props.param_example",
    "Verif.Props.param_refuted"
   ],
   "note": "proved for literals as they stand in the query; refuted: escapes in them are not undone"
  },
  {
   "property": "C163",
   "status": "partial",
   "theorems": [
    "Verif.Props.path_leads_partial",
    "Verif.Props.path_status",
    "Verif.Props.path_leads_example",
    "Verif.Props.path_keys_refuted"
   ],
   "note": "refuted: keys are accepted and ignored after the names of values and of complex parts. Proved: every path leads to exactly one resource or breaks for exactly one reason, with the status stated"
  },
  {
   "property": "C164",
   "status": "partial",
   "theorems": [
    "Verif.Props.key_values_partial",
    "Verif.Props.key_order",
    "Verif.Props.key_example",
    "Verif.Props.key_names_refuted"
   ],
   "note": "refuted: keys with names that are no key properties are ignored. Proved: which values are looked up, and that the order does not matter"
  },
  {
   "property": "C165",
   "status": "proved",
   "theorems": [
    "Verif.Props.options_resource",
    "Verif.Props.options_resource_example"
   ],
   "note": ""
  },
  {
   "property": "C166",
   "status": "partial",
   "theorems": [
    "Verif.Props.get_safe_partial",
    "Verif.Props.read_only_partial",
    "Verif.Props.safe_example",
    "Verif.Props.safe_refuted"
   ],
   "note": "refuted: functions are executed whatever the method is. Proved for all paths that do not begin with a function, and for all other methods of a read-only server"
  },
  {
   "property": "C167",
   "status": "partial",
   "theorems": [
    "Verif.Props.atomic_partial",
    "Verif.Props.atomic_example",
    "Verif.Props.atomic_refuted"
   ],
   "note": "refuted: an entity stays inserted though the answer is 406, a media resource though its type cannot be read, a function is executed before its options are tested. Proved for all other requests"
  },
  {
   "property": "C168",
   "status": "partial",
   "theorems": [
    "Verif.Props.dollar_count_partial",
    "Verif.Props.dollar_count_example",
    "Verif.Props.dollar_count_refuted"
   ],
   "note": "refuted: $filter and $top are accepted and ignored. Proved without options"
  },
  {
   "property": "C169",
   "status": "partial",
   "theorems": [
    "Verif.Props.methods_partial",
    "Verif.Props.methods_example",
    "Verif.Props.methods_refuted"
   ],
   "note": "refuted: the service document, metadata and counts are returned for every method, and HEAD is refused. Proved for entities, collections, values and links"
  },
  {
   "property": "C17",
   "status": "partial",
   "theorems": [
    "Verif.Props.condition_meaning_partial",
    "Verif.Props.negated_test_unanswered",
    "Verif.Props.varsubstring_reversed",
    "Verif.Props.varsubset_list_lost",
    "Verif.Props.text_inequality_fails"
   ],
   "note": "refuted: the negation of a test of an unanswered response becomes NULL, which counts as false; varsubstring is turned round; the list of varsubset becomes one identifier; inequalities on text fail.  Proved for all nestings of the other tests, when what is tested inside a not was answered; varinside is not covered"
  },
  {
   "property": "C170",
   "status": "partial",
   "theorems": [
    "Verif.Props.answered_partial",
    "Verif.Props.answered_example",
    "Verif.Props.answered_refuted"
   ],
   "note": "refuted: an Accept header that the reader cannot read makes the report of the error fail too, and one with a control character is never answered. Proved for readable headers"
  },
  {
   "property": "C171",
   "status": "partial",
   "theorems": [
    "Verif.Props.client_partial",
    "Verif.Props.client_example",
    "Verif.Props.client_refuted"
   ],
   "note": "refuted by five requests. Proved for requests to read without version headers"
  },
  {
   "property": "C172",
   "status": "proved",
   "theorems": [
    "Verif.Props.null_value",
    "Verif.Props.no_entity",
    "Verif.Props.null_example"
   ],
   "note": ""
  },
  {
   "property": "C173",
   "status": "partial",
   "theorems": [
    "Verif.Props.get_type_partial",
    "Verif.Props.default_type",
    "Verif.Props.format_first",
    "Verif.Props.type_example"
   ],
   "note": "missing: wildcards with parameters, for which selection is refuted under C132"
  },
  {
   "property": "C174",
   "status": "partial",
   "theorems": [
    "Verif.Props.service_version_partial",
    "Verif.Props.service_version_example",
    "Verif.Props.service_version_refuted"
   ],
   "note": "refuted: comments in the name of the program, and 500 for a version that cannot be read. Proved for versions, alone or with the name of a program that is a token"
  },
  {
   "property": "C175",
   "status": "proved",
   "theorems": [
    "Verif.Props.py_conditions_in_order",
    "Verif.Props.py_conditions_built",
    "Verif.Props.py_converted"
   ],
   "note": ""
  },
  {
   "property": "C176",
   "status": "partial",
   "theorems": [
    "Verif.Props.py_condition_meaning_partial",
    "Verif.Props.py_condition_meaning_refuted",
    "Verif.Props.py_unsupported_refused",
    "Verif.Props.py_inequality_refused"
   ],
   "note": "refuted: an index into an ordered response gives a condition that fails, texts are trimmed, and tests for unanswered responses, subsets and substrings stop the migration. Proved for the tests that are converted"
  },
  {
   "property": "C177",
   "status": "partial",
   "theorems": [
    "Verif.Props.py_setVar",
    "Verif.Props.py_setvar_float",
    "Verif.Props.py_setvar_integer_partial",
    "Verif.Props.setvar_integer_divide_fails",
    "Verif.Props.py_undeclared_outcome_refused"
   ],
   "note": "refuted: division of integers makes response processing fail, and an outcome that is not declared stops the migration. Proved for decimal outcomes, and for integer outcomes without division"
  },
  {
   "property": "C178",
   "status": "partial",
   "theorems": [
    "Verif.Props.py_item_scores_partial",
    "Verif.Props.py_limits_refuted"
   ],
   "note": "refuted: limits are not kept. Proved without limits, for items whose conditions and actions are converted"
  },
  {
   "property": "C179",
   "status": "partial",
   "theorems": [
    "Verif.Props.py_feedback_shown_partial",
    "Verif.Props.py_feedback_outcome",
    "Verif.Props.py_feedback_identifier",
    "Verif.Props.py_feedback_shown_refuted"
   ],
   "note": "refuted for every name that is not a legal identifier: the rule fails. Proved for legal names"
  },
  {
   "property": "C18",
   "status": "partial",
   "theorems": [
    "Verif.Props.area_numbers_partial",
    "Verif.Props.area_leading_separator",
    "Verif.Props.rectangle_region_partial",
    "Verif.Props.rectangle_loses_pixels",
    "Verif.Props.ellipse_region_partial",
    "Verif.Props.tiny_ellipse_covers_everything"
   ],
   "note": "refuted three ways (leading separator; last row and column of every rectangle; ellipses with a diameter below 2); guarded versions proved"
  },
  {
   "property": "C180",
   "status": "partial",
   "theorems": [
    "Verif.Props.py_outcome_declared_partial",
    "Verif.Props.py_outcomes_declared",
    "Verif.Props.py_boolean_outcome_refuted",
    "Verif.Props.py_name_collision_fails",
    "Verif.Props.py_interpretation_joined",
    "Verif.Props.py_interpretation_undeclared"
   ],
   "note": "refuted: outcomes of type Boolean become identifiers, and names with the same identifier stop the migration. Proved for all other types with fresh identifiers"
  },
  {
   "property": "C181",
   "status": "partial",
   "theorems": [
    "Verif.Props.py_area_numbers_partial",
    "Verif.Props.py_area_numbers_refuted",
    "Verif.Props.py_rectangle_region_partial",
    "Verif.Props.py_rectangle_region_refuted",
    "Verif.Props.py_ellipse_region_partial",
    "Verif.Props.py_ellipse_incomplete_fails",
    "Verif.Props.py_bounded_kept"
   ],
   "note": "refuted: rectangles lose a row and a column, numbers after a leading separator are torn apart, ellipses with fewer than four numbers fail. Proved: what rectangles become, ellipses with even diameters, polygons"
  },
  {
   "property": "C182",
   "status": "proved",
   "theorems": [
    "Verif.Props.py_view_kept",
    "Verif.Props.py_view_role",
    "Verif.Props.py_view_case"
   ],
   "note": ""
  },
  {
   "property": "C183",
   "status": "partial",
   "theorems": [
    "Verif.Props.py_blanks_declared_partial",
    "Verif.Props.py_response_declared",
    "Verif.Props.py_answers_united",
    "Verif.Props.py_answers_first",
    "Verif.Props.py_naming_never_ends",
    "Verif.Props.py_single_blanks_lost",
    "Verif.Props.py_ordered_blanks_fail"
   ],
   "note": "refuted: if the name for a blank is in use migration never ends; for cardinality Single nothing is declared; for Ordered response processing fails. Proved for unused names, and for Multiple what the added rule does"
  },
  {
   "property": "C184",
   "status": "partial",
   "theorems": [
    "Verif.Props.py_file_migrated",
    "Verif.Props.py_file_lost"
   ],
   "note": "refuted: an item that cannot be migrated loses the whole file. Proved for files without such items"
  },
  {
   "property": "C185",
   "status": "partial",
   "theorems": [
    "Verif.Props.py_default_cardinality_refuted",
    "Verif.Props.py_default_area_refuted"
   ],
   "note": "refuted for every question without cardinality and every area without shape"
  },
  {
   "property": "C186",
   "status": "partial",
   "theorems": [
    "Verif.Props.py_xml_reads_partial",
    "Verif.Props.py_xml_reads_refuted",
    "Verif.Props.py_xml_read_unique"
   ],
   "note": "refuted: processing instructions that end with two question marks, names outside the basic multilingual plane and documents that begin with a processing instruction whose target begins with xml are refused. Proved for every other document"
  },
  {
   "property": "C187",
   "status": "partial",
   "theorems": [
    "Verif.Props.py_xml_sound_partial",
    "Verif.Props.py_xml_sound_refuted"
   ],
   "note": "refuted: control characters and texts that end inside a comment or a processing instruction are accepted. Proved for texts of legal characters without comments and processing instructions"
  },
  {
   "property": "C188",
   "status": "partial",
   "theorems": [
    "Verif.Props.py_xml_ends_partial",
    "Verif.Props.py_xml_hangs"
   ],
   "note": "refuted: the parser never ends on data with ]]>. Proved for every text, well-formed or not, in which ]]> does not occur"
  },
  {
   "property": "C189",
   "status": "partial",
   "theorems": [
    "Verif.Props.py_xml_round_trip",
    "Verif.Props.py_xml_attributes_refuted",
    "Verif.Props.py_xml_empty_value_refuted",
    "Verif.Props.py_xml_control_refuted"
   ],
   "note": "refuted: tabs and line feeds in attribute values become spaces, an empty value becomes a space, characters XML does not allow are written. Proved for names of the basic multilingual plane, legal characters and attribute values without tabs and line feeds, up to the white space of C190"
  },
  {
   "property": "C19",
   "status": "proved",
   "theorems": [
    "Verif.Props.unsupported_elements_ignored",
    "Verif.Props.run_unsupported"
   ],
   "note": "for every semantics of the supported element classes; inside text material every element is raw text by design"
  },
  {
   "property": "C190",
   "status": "proved",
   "theorems": [
    "Verif.Props.py_xml_preserve",
    "Verif.Props.py_xml_words"
   ],
   "note": ""
  },
  {
   "property": "C191",
   "status": "proved",
   "theorems": [
    "Verif.Props.py_xml_ascii",
    "Verif.Props.py_xml_round_trip"
   ],
   "note": ""
  },
  {
   "property": "C192",
   "status": "partial",
   "theorems": [
    "Verif.Props.py_xml_cdsect_refused"
   ],
   "note": "refuted: what is written is always refused"
  },
  {
   "property": "C193",
   "status": "partial",
   "theorems": [
    "Verif.Props.py_xml_set_value",
    "Verif.Props.py_xml_get_value",
    "Verif.Props.py_xml_ignore_elements_refuted"
   ],
   "note": "refuted: child elements cannot be left out. The rest is proved"
  },
  {
   "property": "C194",
   "status": "partial",
   "theorems": [
    "Verif.Props.sql_reads_partial",
    "Verif.Props.sql_operators_written",
    "Verif.Props.sql_functions_written",
    "Verif.Props.sql_reads_refuted",
    "Verif.Props.sqlite_precedences",
    "Verif.Props.standard_precedences"
   ],
   "note": "refuted: brackets to the right of an operator of the same precedence are lost, 5 sub (3 sub 1) becomes 5 - 3 - 1. Proved for filters in which no such operand occurs, no comparison is compared and the text of concat is not calculated with"
  },
  {
   "property": "C195",
   "status": "partial",
   "theorems": [
    "Verif.Props.sql_filter_partial",
    "Verif.Props.selects_not_left",
    "Verif.Props.sql_filter_example",
    "Verif.Props.sql_null_refuted",
    "Verif.Props.sql_wildcard_refuted",
    "Verif.Props.sql_indexof_refuted",
    "Verif.Props.sql_reads_refuted"
   ],
   "note": "refuted: nulls, % and _ in the text to be found, indexof and lost brackets. Proved for comparisons of Int32, Int64 and String properties and literals and tests for texts without wildcards, joined by and and or, if the properties are not null"
  },
  {
   "property": "C196",
   "status": "partial",
   "theorems": [
    "Verif.Props.sql_null_never",
    "Verif.Props.sql_null_refuted"
   ],
   "note": "refuted: such a comparison selects no row whatever is stored"
  },
  {
   "property": "C197",
   "status": "proved",
   "theorems": [
    "Verif.Props.sql_text_safe",
    "Verif.Props.sql_text_example"
   ],
   "note": ""
  },
  {
   "property": "C198",
   "status": "proved",
   "theorems": [
    "Verif.Props.sql_foreign_refused",
    "Verif.Props.sql_text_example"
   ],
   "note": ""
  },
  {
   "property": "C199",
   "status": "proved",
   "theorems": [
    "Verif.Props.PO.connection_has_one_user",
    "Verif.Props.PO.releases_at_most_gots"
   ],
   "note": ""
  },
  {
   "property": "C20",
   "status": "partial",
   "theorems": [
    "Verif.Props.flow_content_kept",
    "Verif.Props.flow_structure_partial",
    "Verif.Props.empty_flow_makes_paragraph"
   ],
   "note": "content order proved for all flows; refuted for the empty flow, which becomes an empty paragraph; structure proved for all other flows"
  },
  {
   "property": "C200",
   "status": "proved",
   "theorems": [
    "Verif.Props.PO.thread_has_one_connection",
    "Verif.Props.PO.nested_acquire_gets_the_same",
    "Verif.Props.PO.holder_can_release"
   ],
   "note": ""
  },
  {
   "property": "C201",
   "status": "proved",
   "theorems": [
    "Verif.Props.PO.open_connections_bounded"
   ],
   "note": ""
  },
  {
   "property": "C202",
   "status": "proved",
   "theorems": [
    "Verif.Props.PO.got_was_opened"
   ],
   "note": ""
  },
  {
   "property": "C203",
   "status": "partial",
   "theorems": [
    "Verif.Props.PO.waiting_thread_is_woken",
    "Verif.Props.PO.sleeping_only_if_busy",
    "Verif.Props.PO.wakeup_lost_by_failure_refuted",
    "Verif.Props.PO.wakeup_lost_by_timeout_refuted"
   ],
   "note": "refuted: the notification is lost if the notified thread cannot open a connection, or (module that must not be shared) runs out of time. Proved for schedules in which connections can be opened and, with such a module, nobody runs out of time"
  },
  {
   "property": "C204",
   "status": "partial",
   "theorems": [
    "Verif.Props.PO.failure_blocks_module",
    "Verif.Props.PO.wakeup_lost_by_failure_refuted"
   ],
   "note": "refuted: with a module that must not be shared no other thread ever gets a connection again, as the lock of the module is kept"
  },
  {
   "property": "C205",
   "status": "proved",
   "theorems": [
    "Verif.Props.PO.closed_never_handed_out"
   ],
   "note": ""
  },
  {
   "property": "C206",
   "status": "partial",
   "theorems": [
    "Verif.Props.PO.closed_only_when_unused",
    "Verif.Props.PO.closed_only_when_unused_refuted"
   ],
   "note": "refuted: close does so if the module must not be shared. Proved for every schedule without close"
  },
  {
   "property": "C207",
   "status": "partial",
   "theorems": [
    "Verif.Props.PO.close_of_idle_container",
    "Verif.Props.PO.close_after_release_refuted",
    "Verif.Props.PO.close_of_dead_thread_never_returns",
    "Verif.Props.PO.nothing_opened_after_close_refuted"
   ],
   "note": "refuted: a release during close is not noticed, so the connection stays open; a thread that ended without a release makes close loop for ever; a thread that waits opens a connection afterwards. Proved if nobody has a connection or waits when close is called"
  },
  {
   "property": "C208",
   "status": "proved",
   "theorems": [
    "Verif.Props.PO.release_of_anothers_fails"
   ],
   "note": ""
  },
  {
   "property": "C209",
   "status": "proved",
   "theorems": [
    "Verif.Props.literal_in_range",
    "Verif.Props.literal_prefix_in_range",
    "Verif.Props.expression_literals_in_range",
    "Verif.Props.range_hypotheses"
   ],
   "note": ""
  },
  {
   "property": "C21",
   "status": "partial",
   "theorems": [
    "Verif.Props.html_events_nested",
    "Verif.Props.html_text_kept_partial",
    "Verif.Props.html_text_reordered",
    "Verif.Props.html_rows_reordered",
    "Verif.Props.html_list_text_fails"
   ],
   "note": "balance and event text proved for all inputs; the text of the built elements is refuted for nested qtihtml, tables and lists and proved for all other tags"
  },
  {
   "property": "C210",
   "status": "proved",
   "theorems": [
    "Verif.Props.SQP.reading_complete",
    "Verif.Props.SQP.reading_true",
    "Verif.Props.SQP.reading_of_unchanged",
    "Verif.Props.SQP.reading_ends",
    "Verif.Props.SQP.regular_example",
    "Verif.Props.SQP.reading_example"
   ],
   "note": ""
  },
  {
   "property": "C211",
   "status": "partial",
   "theorems": [
    "Verif.Props.SQP.null_at_end",
    "Verif.Props.SQP.null_only_on_first_page",
    "Verif.Props.SQP.null_first_refuted",
    "Verif.Props.SQP.null_last_refuted"
   ],
   "note": "refuted: a null at the end of a page raises an exception instead of giving a link, and after the first page no row with a null in the first order column is ever selected, so that it is lost where nulls come last. C210 holds without nulls"
  },
  {
   "property": "C212",
   "status": "partial",
   "theorems": [
    "Verif.Props.SQP.long_refuted",
    "Verif.Props.SQP.reading_complete"
   ],
   "note": "refuted: a first page that ends with values of more than 512 characters raises an exception, list(None). C210 holds for at most 512 characters"
  },
  {
   "property": "C213",
   "status": "proved",
   "theorems": [
    "Verif.Props.SQP.page_size_bounded",
    "Verif.Props.SQP.page_within_top",
    "Verif.Props.SQP.top_below_limit",
    "Verif.Props.SQP.reading_example"
   ],
   "note": ""
  },
  {
   "property": "C214",
   "status": "partial",
   "theorems": [
    "Verif.Props.SQP.top_refuted",
    "Verif.Props.SQP.top_below_limit",
    "Verif.Props.SQP.page_within_top"
   ],
   "note": "refuted: the link to the next page does not contain $top, so following the links reads everything; if $top equals the limit of the server there is a link too. Proved for $top below the limit, and for each page"
  },
  {
   "property": "C215",
   "status": "proved",
   "theorems": [
    "Verif.Props.ST.insert_atomic",
    "Verif.Props.ST.insert_example",
    "Verif.Props.ST.tidy_example"
   ],
   "note": ""
  },
  {
   "property": "C216",
   "status": "partial",
   "theorems": [
    "Verif.Props.ST.insert_atomic_refuted",
    "Verif.Props.ST.insert_keys_failed",
    "Verif.Props.ST.insert_keys_crash",
    "Verif.Props.ST.insert_atomic"
   ],
   "note": "refuted: looking up an entity by its key is a method with a transaction of its own on the same connection, whose commit commits the unfinished insertion. Proved (C215) for objects and for keys where the entity has the foreign key"
  },
  {
   "property": "C217",
   "status": "proved",
   "theorems": [
    "Verif.Props.ST.update_atomic",
    "Verif.Props.ST.update_example"
   ],
   "note": ""
  },
  {
   "property": "C218",
   "status": "partial",
   "theorems": [
    "Verif.Props.ST.update_atomic_refuted",
    "Verif.Props.ST.update_failed",
    "Verif.Props.ST.update_crash",
    "Verif.Props.ST.update_atomic"
   ],
   "note": "refuted: keys, and new entities with an auxiliary table (which are inserted without the transaction), commit the unfinished update. Proved (C217) for all other bindings"
  },
  {
   "property": "C219",
   "status": "proved",
   "theorems": [
    "Verif.Props.ST.delete_atomic",
    "Verif.Props.ST.delete_example"
   ],
   "note": ""
  },
  {
   "property": "C22",
   "status": "partial",
   "theorems": [
    "Verif.Props.plain_text_verbatim",
    "Verif.Props.tokenizer_progress",
    "Verif.Props.tokenizer_uncaught_error"
   ],
   "note": "termination is the totality of the model; refuted part: a malformed character reference raises an error other than XMLException"
  },
  {
   "property": "C220",
   "status": "partial",
   "theorems": [
    "Verif.Props.ST.delete_atomic_refuted",
    "Verif.Props.ST.delete_failed",
    "Verif.Props.ST.delete_atomic"
   ],
   "note": "refuted: reading the dependent entities commits what has been removed so far. Proved (C219) without dependent entities"
  },
  {
   "property": "C221",
   "status": "proved",
   "theorems": [
    "Verif.Props.ST.insertLink_atomic",
    "Verif.Props.ST.replaceLink_atomic",
    "Verif.Props.ST.deleteLink_atomic",
    "Verif.Props.ST.clearLinks_atomic"
   ],
   "note": ""
  },
  {
   "property": "C222",
   "status": "proved",
   "theorems": [
    "Verif.Props.ST.insert_stores",
    "Verif.Props.ST.insert_example"
   ],
   "note": ""
  },
  {
   "property": "C223",
   "status": "proved",
   "theorems": [
    "Verif.Props.ST.insert_new",
    "Verif.Props.ST.insert_taken",
    "Verif.Props.ST.insert_example"
   ],
   "note": ""
  },
  {
   "property": "C224",
   "status": "proved",
   "theorems": [
    "Verif.Props.ST.update_stores",
    "Verif.Props.ST.update_example"
   ],
   "note": ""
  },
  {
   "property": "C225",
   "status": "proved",
   "theorems": [
    "Verif.Props.ST.delete_removes",
    "Verif.Props.ST.cascade_example",
    "Verif.Props.ST.delete_example"
   ],
   "note": ""
  },
  {
   "property": "C226",
   "status": "proved",
   "theorems": [
    "Verif.Props.ST.insert_not_raw",
    "Verif.Props.ST.update_not_raw",
    "Verif.Props.ST.delete_not_raw"
   ],
   "note": ""
  },
  {
   "property": "C227",
   "status": "partial",
   "theorems": [
    "Verif.Props.ST.no_rollback",
    "Verif.Props.ST.insert_not_raw"
   ],
   "note": "refuted: the handler for a database that cannot roll back names a variable that does not exist, so that every failure ends with NameError"
  },
  {
   "property": "C228",
   "status": "partial",
   "theorems": [
    "Verif.Props.ST.retry_refused",
    "Verif.Props.ST.retry_refuted",
    "Verif.Props.ST.insert_atomic"
   ],
   "note": "refuted: the object is marked as existing before the commit and keeps the mark, so that it is refused with EntityExists"
  },
  {
   "property": "C229",
   "status": "partial",
   "theorems": [
    "Verif.Props.ST.multiplicity_refuted",
    "Verif.Props.ST.two_passports",
    "Verif.Props.ST.insertLink_occupied"
   ],
   "note": "refuted: a foreign key that should be unique (one to at most one) is created without that constraint. Proved: no second link where the entity has the foreign key"
  },
  {
   "property": "C23",
   "status": "partial",
   "theorems": [
    "Verif.Props.rtf_tags_nested",
    "Verif.Props.rtf_finishes_partial",
    "Verif.Props.rtf_never_finishes"
   ],
   "note": "nesting proved for all inputs; finishing refuted: after \\uc-6 the command \\u65 is read again for ever; proved for every text in which \\uc is nowhere followed by a minus sign"
  },
  {
   "property": "C230",
   "status": "partial",
   "theorems": [
    "Verif.Props.ST.deleteLink_refuted",
    "Verif.Props.ST.deleteLink_missing",
    "Verif.Props.ST.deleteLink_aux"
   ],
   "note": "refuted: with a foreign key making the message fails with TypeError. Proved for auxiliary tables"
  },
  {
   "property": "C231",
   "status": "partial",
   "theorems": [
    "Verif.Props.ST.update_new_own_fails",
    "Verif.Props.ST.update_new_own_example"
   ],
   "note": "refuted for every such update: the transaction is passed in the place of the list of foreign keys, so that none succeeds"
  },
  {
   "property": "C232",
   "status": "proved",
   "theorems": [
    "Verif.Props.http_response_read",
    "Verif.Props.http_response_waits",
    "Verif.Props.http_response_example"
   ],
   "note": "for well-formed responses whose reason and chunk extensions have no controls, quotes or opening brackets and whose chunks and bodies are below 2^63 bytes; what else is allowed is C237"
  },
  {
   "property": "C233",
   "status": "proved",
   "theorems": [
    "Verif.Props.http_open_body",
    "Verif.Props.http_open_example"
   ],
   "note": ""
  },
  {
   "property": "C234",
   "status": "proved",
   "theorems": [
    "Verif.Props.http_reading_ends",
    "Verif.Props.http_buffer_bounded",
    "Verif.Props.http_buffer_new"
   ],
   "note": "the parser of the status line is bounded separately (C128): with control characters it does not return, see C236"
  },
  {
   "property": "C235",
   "status": "partial",
   "theorems": [
    "Verif.Props.http_pieces_refuted",
    "Verif.Props.http_pieces_partial"
   ],
   "note": "refuted: with a negative chunk size the data of the chunk before are taken again if they came in the same piece, otherwise UnboundLocalError. Proved for well-formed responses"
  },
  {
   "property": "C236",
   "status": "partial",
   "theorems": [
    "Verif.Props.http_errors_refuted",
    "Verif.Props.http_response_waits"
   ],
   "note": "refuted: NameError, ValueError, TypeError, UnboundLocalError, no end at all, or no error"
  },
  {
   "property": "C237",
   "status": "partial",
   "theorems": [
    "Verif.Props.http_misread_refuted",
    "Verif.Props.http_response_read"
   ],
   "note": "refuted: brackets and trailing spaces in reasons, Transfer-Encoding: identity, repeated lengths, 2^63 bytes. Proved for the responses of C232"
  },
  {
   "property": "C238",
   "status": "proved",
   "theorems": [
    "Verif.Props.http_body_sent",
    "Verif.Props.http_body_example"
   ],
   "note": ""
  },
  {
   "property": "C239",
   "status": "partial",
   "theorems": [
    "Verif.Props.http_empty_chunks_refuted",
    "Verif.Props.http_text_chunks_partial"
   ],
   "note": "refuted: the empty text is sent with two ends. Proved for all others"
  },
  {
   "property": "C24",
   "status": "partial",
   "theorems": [
    "Verif.Props.repair_preserves_text",
    "Verif.Props.repair_idempotent",
    "Verif.Props.repair_ascii",
    "Verif.Props.repair_no_windows_bytes",
    "Verif.Props.repair_preserves_text_partial",
    "Verif.Props.repair_breaks_cdata"
   ],
   "note": "idempotence, ASCII output and text (references and bytes) proved for all byte strings; refuted once CDATA sections are taken into account, where references are not recognised; proved for files without them"
  },
  {
   "property": "C240",
   "status": "proved",
   "theorems": [
    "Verif.Props.http_request_head",
    "Verif.Props.setHeader_ok",
    "Verif.Props.headersOK_new",
    "Verif.Props.http_head_example"
   ],
   "note": ""
  },
  {
   "property": "C241",
   "status": "partial",
   "theorems": [
    "Verif.Props.http_injection_refuted",
    "Verif.Props.http_no_injection_partial"
   ],
   "note": "refuted: a value with a line end adds a header. Proved for values within a line"
  },
  {
   "property": "C242",
   "status": "proved",
   "theorems": [
    "Verif.Props.http_pool_bounded",
    "Verif.Props.http_pool_bounded_hypotheses"
   ],
   "note": "by an invariant of every step of every schedule"
  },
  {
   "property": "C243",
   "status": "proved",
   "theorems": [
    "Verif.Props.http_pool_exclusive",
    "Verif.Props.http_pool_exclusive_hypotheses"
   ],
   "note": "for every schedule, also those in which connections are killed while their threads process them"
  },
  {
   "property": "C244",
   "status": "proved",
   "theorems": [
    "Verif.Props.http_pool_queued",
    "Verif.Props.http_pool_queued_hypotheses"
   ],
   "note": ""
  },
  {
   "property": "C245",
   "status": "proved",
   "theorems": [
    "Verif.Props.http_pool_economy",
    "Verif.Props.http_pool_economy_hypotheses"
   ],
   "note": ""
  },
  {
   "property": "C246",
   "status": "partial",
   "theorems": [
    "Verif.Props.http_pool_promise_partial",
    "Verif.Props.http_pool_promise_hypotheses",
    "Verif.Props.http_pool_promise_refuted"
   ],
   "note": "refuted: _DeactivateConnection looks for the thread and target but not for the connection, so that a connection killed at work replaces the new one of its thread. Proved for schedules in which ActiveCleanup kills only connections of threads that are not in ThreadTask"
  },
  {
   "property": "C247",
   "status": "partial",
   "theorems": [
    "Verif.Props.http_pool_wakes_partial",
    "Verif.Props.http_pool_turn",
    "Verif.Props.http_pool_wakes_hypotheses",
    "Verif.Props.http_pool_wakes_refuted"
   ],
   "note": "refuted: after the fault of C246 ActiveCleanup raises KeyError before it notifies. Proved for schedules in which ActiveCleanup kills only connections of threads that are not in ThreadTask; that a notified thread gets a free place is proved for all"
  },
  {
   "property": "C248",
   "status": "partial",
   "theorems": [
    "Verif.Props.http_pool_closed_partial",
    "Verif.Props.http_pool_closed_hypotheses",
    "Verif.Props.http_pool_closed_refuted"
   ],
   "note": "refuted: a thread that waits does not look at closing when it goes on. Proved for managers in which no thread waits"
  },
  {
   "property": "C249",
   "status": "partial",
   "theorems": [
    "Verif.Props.http_pool_cleanup_partial",
    "Verif.Props.http_pool_cleanup_hypotheses",
    "Verif.Props.http_pool_cleanup_refuted"
   ],
   "note": "refuted: lastActive of a connection that has just been made or taken is 0 or old. Proved: what is killed or closed has a lastActive beyond the limit, and after harmless cleanups all of them are"
  },
  {
   "property": "C25",
   "status": "proved",
   "theorems": [
    "Verif.Props.identifiers_legal",
    "Verif.Props.identifiers_stable",
    "Verif.Props.legal_identifier_kept"
   ],
   "note": "qti2.ValidateIdentifier is modelled as the function of pyslet.qtiv2.core; at this commit the import in the migration tool is broken (DESIGN.md)"
  },
  {
   "property": "C250",
   "status": "proved",
   "theorems": [
    "Verif.Props.http_requests_in_turn",
    "Verif.Props.http_requests_in_order",
    "Verif.Props.http_requests_example"
   ],
   "note": "by an invariant of small steps that every event is made of"
  },
  {
   "property": "C251",
   "status": "proved",
   "theorems": [
    "Verif.Props.http_answers_matched",
    "Verif.Props.http_answers_example"
   ],
   "note": "by an invariant that relates the answers, the bytes and the state of the response being read"
  },
  {
   "property": "C252",
   "status": "partial",
   "theorems": [
    "Verif.Props.http_requests_once_partial",
    "Verif.Props.http_requests_once_refuted",
    "Verif.Props.http_posts_wait_refuted"
   ],
   "note": "refuted: _StartRequest is called even if the request stays in the queue, so that a POST is sent again and again, the later ones without the body, while an answer is awaited. Proved for requests that are queued at rest or can be repeated"
  },
  {
   "property": "C253",
   "status": "proved",
   "theorems": [
    "Verif.Props.http_body_waits",
    "Verif.Props.http_body_waits_example"
   ],
   "note": ""
  },
  {
   "property": "C254",
   "status": "partial",
   "theorems": [
    "Verif.Props.http_killed_stays",
    "Verif.Props.http_killed_example",
    "Verif.Props.http_killed_early_refuted"
   ],
   "note": "refuted: Kill does nothing if there is no socket yet. Proved if there is one"
  },
  {
   "property": "C255",
   "status": "partial",
   "theorems": [
    "Verif.Props.http_requests_finished",
    "Verif.Props.http_requests_finished_example",
    "Verif.Props.http_requests_finished_refuted",
    "Verif.Props.http_bad_requests_finished_refuted",
    "Verif.Props.http_finished_once_refuted"
   ],
   "note": "refuted: not called if the head of an informational response is cut off or if the request cannot be started, and called twice after 100 Continue. Proved: called at least once for every request that was started, by the end of its socket, if no status is 0 and no informational response is cut off"
  },
  {
   "property": "C256",
   "status": "partial",
   "theorems": [
    "Verif.Props.http_answers_passed_refuted",
    "Verif.Props.http_answers_matched"
   ],
   "note": "refuted: the answer to a second request that arrives with the first one is not looked at until more bytes come, and lost if the server hangs up. What is passed on is right by C251"
  },
  {
   "property": "C257",
   "status": "partial",
   "theorems": [
    "Verif.Props.http_truncated_refuted",
    "Verif.Props.http_truncated_chunks_refuted"
   ],
   "note": "refuted: a response that is cut off has its status and no error, and some of its chunks as the body. What is said to be whole is whole by C251"
  },
  {
   "property": "C258",
   "status": "partial",
   "theorems": [
    "Verif.Props.http_credentials_partial",
    "Verif.Props.http_credentials_refuted",
    "Verif.Props.http_credentials_hypotheses"
   ],
   "note": "refuted: a colon in the user or the password raises NameError on reading. Proved for all others"
  },
  {
   "property": "C259",
   "status": "proved",
   "theorems": [
    "Verif.Props.http_space_one_server",
    "Verif.Props.http_space_hypotheses"
   ],
   "note": ""
  },
  {
   "property": "C26",
   "status": "proved",
   "theorems": [
    "Verif.Props.warnings_once",
    "Verif.Props.firstOccurrences_nodup",
    "Verif.Props.mem_firstOccurrences"
   ],
   "note": ""
  },
  {
   "property": "C260",
   "status": "partial",
   "theorems": [
    "Verif.Props.http_credentials_owner_partial",
    "Verif.Props.http_credentials_owner_refuted",
    "Verif.Props.http_credentials_owner_hypotheses"
   ],
   "note": "refuted: the header is kept when a redirect leads to another server, without encryption too. Proved for requests to the server that all earlier ones of the exchange were sent to"
  },
  {
   "property": "C261",
   "status": "proved",
   "theorems": [
    "Verif.Props.http_success_paths",
    "Verif.Props.http_success_hypotheses"
   ],
   "note": ""
  },
  {
   "property": "C262",
   "status": "partial",
   "theorems": [
    "Verif.Props.http_volunteered_partial",
    "Verif.Props.http_volunteered_sent",
    "Verif.Props.http_volunteered_learned",
    "Verif.Props.http_volunteered_refuted",
    "Verif.Props.http_volunteered_hypotheses"
   ],
   "note": "refuted for paths with empty segments. Proved: what has to be so for a request to be sent with credentials at once, that paths are learned only from requests that were answered, and, for paths without empty segments, that good paths are those at or below them"
  },
  {
   "property": "C263",
   "status": "partial",
   "theorems": [
    "Verif.Props.http_redirects_end_refuted"
   ],
   "note": "refuted: a redirect to the same URL is followed without end"
  },
  {
   "property": "C264",
   "status": "partial",
   "theorems": [
    "Verif.Props.http_redirect_methods_partial",
    "Verif.Props.http_redirect_methods_refuted",
    "Verif.Props.http_redirect_methods_hypotheses"
   ],
   "note": "refuted: POST is sent again with its body after 301, 303 and 307. Proved: method and body never change, and after 302 only GET and HEAD are sent again"
  },
  {
   "property": "C265",
   "status": "partial",
   "theorems": [
    "Verif.Props.http_answers_handled_partial",
    "Verif.Props.http_answers_handled_refuted"
   ],
   "note": "refuted: seven kinds of responses that raise. Proved for responses with other statuses than 3xx and 401"
  },
  {
   "property": "C266",
   "status": "partial",
   "theorems": [
    "Verif.Props.http_challenge_partial",
    "Verif.Props.http_challenge_lists_refuted",
    "Verif.Props.http_challenge_refuted",
    "Verif.Props.http_challenge_hypotheses"
   ],
   "note": "refuted: no header is read as more than one challenge, FromString cannot read two parameters and schemes other than Basic are lost. Proved for one basic challenge, whatever its parameters, read with ListFromString"
  },
  {
   "property": "C267",
   "status": "proved",
   "theorems": [
    "Verif.Props.http_challenge_lookup",
    "Verif.Props.http_challenge_realm",
    "Verif.Props.http_challenge_lookup_hypotheses"
   ],
   "note": ""
  },
  {
   "property": "C268",
   "status": "proved",
   "theorems": [
    "Verif.Props.http_host_header",
    "Verif.Props.http_host_hypotheses"
   ],
   "note": ""
  },
  {
   "property": "C269",
   "status": "proved",
   "theorems": [
    "Verif.Props.http_resent_once",
    "Verif.Props.http_resent_hypotheses"
   ],
   "note": ""
  },
  {
   "property": "C27",
   "status": "proved",
   "theorems": [
    "Verif.Props.date_absolute_round_trip",
    "Verif.Props.absolute_date_round_trip",
    "Verif.Props.tomorrow_absolute",
    "Verif.Props.tomorrow_valid",
    "Verif.Props.before_iff_absolute",
    "Verif.Props.cmp_correct",
    "Verif.Props.legal_iff"
   ],
   "note": ""
  },
  {
   "property": "C270",
   "status": "proved",
   "theorems": [
    "Verif.Props.http_challenge_answered",
    "Verif.Props.http_challenge_answered_hypotheses"
   ],
   "note": ""
  },
  {
   "property": "C271",
   "status": "proved",
   "theorems": [
    "Verif.Props.http_redirect_followed",
    "Verif.Props.http_redirect_unwanted",
    "Verif.Props.http_redirect_followed_hypotheses"
   ],
   "note": ""
  },
  {
   "property": "C272",
   "status": "proved",
   "theorems": [
    "Verif.Props.http_credentials_remembered",
    "Verif.Props.http_credentials_remembered_hypotheses"
   ],
   "note": ""
  },
  {
   "property": "C273",
   "status": "proved",
   "theorems": [
    "Verif.Props.ST.delete_spares",
    "Verif.Props.ST.spares_example"
   ],
   "note": ""
  },
  {
   "property": "C274",
   "status": "proved",
   "theorems": [
    "Verif.Props.TK.counting_token_no_lost_update",
    "Verif.Props.TK.tokens_example",
    "Verif.Props.TK.tokens_example_fair"
   ],
   "note": ""
  },
  {
   "property": "C275",
   "status": "partial",
   "theorems": [
    "Verif.Props.TK.repeated_update_refuted",
    "Verif.Props.TK.counting_token_no_lost_update"
   ],
   "note": "refuted: the failed update has advanced the token of the entity, and its repetition is accepted; proved without repetitions"
  },
  {
   "property": "C276",
   "status": "partial",
   "theorems": [
    "Verif.Props.TK.used_again_refuted",
    "Verif.Props.TK.counting_token_no_lost_update"
   ],
   "note": "refuted: a counting token starts again at 1; proved if no key is used again"
  },
  {
   "property": "C277",
   "status": "partial",
   "theorems": [
    "Verif.Props.TK.partial_selection_refuted",
    "Verif.Props.TK.counting_token_no_lost_update"
   ],
   "note": "refuted: an update without the token does not advance it; proved if everybody selects it"
  },
  {
   "property": "C278",
   "status": "proved",
   "theorems": [
    "Verif.Props.TK.up_to_date_updates",
    "Verif.Props.TK.tokens_example_live"
   ],
   "note": ""
  },
  {
   "property": "C279",
   "status": "partial",
   "theorems": [
    "Verif.Props.TK.null_token_refuted",
    "Verif.Props.TK.last_token_refuted",
    "Verif.Props.TK.up_to_date_updates"
   ],
   "note": "refuted: a NULL token always conflicts, and the largest integer cannot be advanced; proved for all others"
  },
  {
   "property": "C28",
   "status": "partial",
   "theorems": [
    "Verif.Props.zone_sign_dropped",
    "Verif.Props.zone_sign_ignored",
    "Verif.Props.zone_round_trip_partial"
   ],
   "note": "refuted: the sign is read and dropped, so -05:00 reads as +05:00; the magnitude is proved to round-trip"
  },
  {
   "property": "C280",
   "status": "partial",
   "theorems": [
    "Verif.Props.TK.time_and_guid_tokens_refuted"
   ],
   "note": "refuted: with such a token no entity is ever inserted or updated (NameError)"
  },
  {
   "property": "C281",
   "status": "partial",
   "theorems": [
    "Verif.Props.TK.hash_token_refuted",
    "Verif.Props.TK.update_changes"
   ],
   "note": "refuted for every hash function: values are hashed without separators; proved is that updates succeed only if the stored tokens are those of the entity"
  },
  {
   "property": "C282",
   "status": "partial",
   "theorems": [
    "Verif.Props.TK.memory_store_refuted"
   ],
   "note": "refuted: the store in memory does not look at tokens"
  },
  {
   "property": "C283",
   "status": "proved",
   "theorems": [
    "Verif.Props.TK.update_changes",
    "Verif.Props.TK.failed_update_keeps"
   ],
   "note": ""
  },
  {
   "property": "C284",
   "status": "proved",
   "theorems": [
    "Verif.Props.XE.text_is_meant",
    "Verif.Props.XE.means_unique"
   ],
   "note": ""
  },
  {
   "property": "C285",
   "status": "proved",
   "theorems": [
    "Verif.Props.XE.acyclic_is_read"
   ],
   "note": ""
  },
  {
   "property": "C286",
   "status": "partial",
   "theorems": [
    "Verif.Props.XE.empty_read_refuted"
   ],
   "note": "refuted: an entity without text is opened and never closed; the second reference to it is taken for recursion"
  },
  {
   "property": "C287",
   "status": "partial",
   "theorems": [
    "Verif.Props.XE.cycles_rejected_refuted",
    "Verif.Props.XE.looping_for_ever",
    "Verif.Props.XE.cycles_rejected_partial"
   ],
   "note": "refuted: an entity is closed when its last character has been read, and a reference at its end is looked up after that; two entities that consist of a reference to the other are read for ever. Proved if no text ends with a reference"
  },
  {
   "property": "C288",
   "status": "proved",
   "theorems": [
    "Verif.Props.XE.plain_endings_end"
   ],
   "note": ""
  },
  {
   "property": "C289",
   "status": "partial",
   "theorems": [
    "Verif.Props.XE.growth_bounded_refuted"
   ],
   "note": "refuted: k+1 entities of two tokens give 2^(k+1) characters"
  },
  {
   "property": "C29",
   "status": "partial",
   "theorems": [
    "Verif.Props.descriptions_written_partial",
    "Verif.Props.manifest_descriptions_partial",
    "Verif.Props.description_unreadable"
   ],
   "note": "proved for every LOM (and every manifest within the guards of C78) whose texts are legal XML characters without carriage returns and whose languages have no quotes or line breaks; without that refuted: a control character makes the metadata unreadable"
  },
  {
   "property": "C290",
   "status": "proved",
   "theorems": [
    "Verif.Props.JS.value_round_trip",
    "Verif.Props.JS.null_round_trip"
   ],
   "note": ""
  },
  {
   "property": "C291",
   "status": "proved",
   "theorems": [
    "Verif.Props.JS.entity_round_trip",
    "Verif.Props.JS.sample_round_trip"
   ],
   "note": ""
  },
  {
   "property": "C292",
   "status": "partial",
   "theorems": [
    "Verif.Props.JS.moment_refuted",
    "Verif.Props.JS.moment_kept_iff",
    "Verif.Props.JS.moment_round_trip",
    "Verif.Props.JS.leap_second_refuted"
   ],
   "note": "refuted: the last second of a minute before 1970 with a fraction is written and refused, leap seconds are written as the second before. Proved is that proper points in time are read back exactly if they are not in such a second"
  },
  {
   "property": "C293",
   "status": "partial",
   "theorems": [
    "Verif.Props.JS.offset_refuted"
   ],
   "note": "refuted: every writing and every reading fails"
  },
  {
   "property": "C294",
   "status": "partial",
   "theorems": [
    "Verif.Props.JS.moment_read",
    "Verif.Props.JS.day_zero_refuted"
   ],
   "note": "refuted: the day before the first of the calendar is read as the first. Proved for all other ticks"
  },
  {
   "property": "C295",
   "status": "proved",
   "theorems": [
    "Verif.Props.JS.read_typed"
   ],
   "note": ""
  },
  {
   "property": "C296",
   "status": "partial",
   "theorems": [
    "Verif.Props.JS.string_typed_refuted",
    "Verif.Props.JS.fraction_refuted",
    "Verif.Props.JS.number_boolean_refuted"
   ],
   "note": "refuted: strings take any JSON value and hold it, integers take numbers with a fraction and cut them, Booleans take numbers"
  },
  {
   "property": "C297",
   "status": "proved",
   "theorems": [
    "Verif.Props.JS.read_exact"
   ],
   "note": ""
  },
  {
   "property": "C298",
   "status": "partial",
   "theorems": [
    "Verif.Props.JS.complex_missing_refuted",
    "Verif.Props.JS.complex_null_refuted"
   ],
   "note": "refuted for every complex property: leaving it out is an AttributeError, null a TypeError"
  },
  {
   "property": "C299",
   "status": "partial",
   "theorems": [
    "Verif.Props.JS.links_round_trip",
    "Verif.Props.JS.single_link_refuted",
    "Verif.Props.JS.single_link_never"
   ],
   "note": "refuted for properties with one target: the link is written as a list and read as a new entity without values. Proved for properties with many targets"
  },
  {
   "property": "C30",
   "status": "proved",
   "theorems": [
    "Verif.Props.pages_are_windows",
    "Verif.Props.paging_forward_shows_all",
    "Verif.Props.paging_stops_at_ends"
   ],
   "note": ""
  },
  {
   "property": "C300",
   "status": "proved",
   "theorems": [
    "Verif.Props.JS.property_read"
   ],
   "note": ""
  },
  {
   "property": "C301",
   "status": "partial",
   "theorems": [
    "Verif.Props.JS.property_refuted",
    "Verif.Props.JS.foreign_body_refuted"
   ],
   "note": "refuted: what the server answers for a property can be sent back without being stored; any object without the names of an entity's simple properties clears them all"
  },
  {
   "property": "C302",
   "status": "proved",
   "theorems": [
    "Verif.Props.Copy.null_at_any_depth"
   ],
   "note": ""
  },
  {
   "property": "C303",
   "status": "partial",
   "theorems": [
    "Verif.Props.Copy.copy_refuted",
    "Verif.Props.Copy.set_changes_nothing",
    "Verif.Props.Copy.complex_changes_nothing",
    "Verif.Props.Copy.copy_fails",
    "Verif.Props.Copy.copy_sample"
   ],
   "note": "refuted: setting an entity or a complex value from another one never changes anything, as values are set from themselves; with two properties outside the key an entity cannot be copied at all, as the variable with the source is overwritten"
  },
  {
   "property": "C304",
   "status": "proved",
   "theorems": [
    "Verif.Props.Feeds.client_pages",
    "Verif.Props.Feeds.client_partition",
    "Verif.Props.Feeds.client_pages_sample"
   ],
   "note": ""
  },
  {
   "property": "C305",
   "status": "proved",
   "theorems": [
    "Verif.Props.Feeds.json_complete",
    "Verif.Props.Feeds.json_count"
   ],
   "note": ""
  },
  {
   "property": "C306",
   "status": "partial",
   "theorems": [
    "Verif.Props.Feeds.atom_limit",
    "Verif.Props.Feeds.json_limit_refuted"
   ],
   "note": "refuted for JSON: every collection is sent as a whole. Proved for XML"
  },
  {
   "property": "C307",
   "status": "partial",
   "theorems": [
    "Verif.Props.Feeds.links_xml_refuted",
    "Verif.Props.Feeds.json_complete",
    "Verif.Props.Feeds.json_count"
   ],
   "note": "refuted for XML: all links are sent, without a count. Proved for JSON"
  },
  {
   "property": "C308",
   "status": "proved",
   "theorems": [
    "Verif.Props.Names.names_read",
    "Verif.Props.Names.removed_means"
   ],
   "note": "what is said of default namespaces that are removed, of tags without meaning and of other names with xmlns is in C312-C314"
  },
  {
   "property": "C309",
   "status": "proved",
   "theorems": [
    "Verif.Props.Names.names_written",
    "Verif.Props.Names.made_ok",
    "Verif.Props.Names.made_written"
   ],
   "note": "trees outside the conditions are in C315"
  },
  {
   "property": "C31",
   "status": "partial",
   "theorems": [
    "Verif.Props.media_file_written_partial",
    "Verif.Props.media_file_not_written"
   ],
   "note": "refuted for names with a colon; proved for all others"
  },
  {
   "property": "C310",
   "status": "proved",
   "theorems": [
    "Verif.Props.Names.made_trees_round_trip",
    "Verif.Props.Names.names_round_trip",
    "Verif.Props.Names.made_ok",
    "Verif.Props.Names.made_written"
   ],
   "note": ""
  },
  {
   "property": "C311",
   "status": "proved",
   "theorems": [
    "Verif.Props.Names.new_prefix",
    "Verif.Props.Names.newPrefixFrom_some"
   ],
   "note": ""
  },
  {
   "property": "C312",
   "status": "partial",
   "theorems": [
    "Verif.Props.Names.removed_default_refuted",
    "Verif.Props.Names.removed_means",
    "Verif.Props.Names.names_read"
   ],
   "note": "refuted: the element gets the empty text as its namespace, and elements inside it get the namespace that was removed"
  },
  {
   "property": "C313",
   "status": "partial",
   "theorems": [
    "Verif.Props.Names.undeclared_prefix_refuted",
    "Verif.Props.Names.same_attribute_refuted"
   ],
   "note": "refuted: every undeclared prefix gives an element without namespace, and of two attributes with one name one is lost"
  },
  {
   "property": "C314",
   "status": "partial",
   "theorems": [
    "Verif.Props.Names.reserved_attribute_refuted",
    "Verif.Props.Names.names_read"
   ],
   "note": "refuted: every attribute whose name begins with xmlns is removed"
  },
  {
   "property": "C315",
   "status": "partial",
   "theorems": [
    "Verif.Props.Names.attribute_namespace_refuted",
    "Verif.Props.Names.no_namespace_refuted",
    "Verif.Props.Names.names_written"
   ],
   "note": "refuted: attributes in the default namespace are written without prefix, and elements without namespace are captured by the default namespace. Proved when all elements have namespaces and attributes have others"
  },
  {
   "property": "C316",
   "status": "partial",
   "theorems": [
    "Verif.Props.Names.read_then_write_refuted",
    "Verif.Props.Names.read_then_write",
    "Verif.Props.Names.hidden_sample"
   ],
   "note": "refuted: ValueError if the prefix that is remembered is declared again on an element that also declares a default namespace. Proved for documents where no tag declares two prefixes for one namespace"
  },
  {
   "property": "C317",
   "status": "proved",
   "theorems": [
    "Verif.Props.Names.rewritten_means",
    "Verif.Props.Names.read_then_write",
    "Verif.Props.Names.hidden_sample"
   ],
   "note": ""
  },
  {
   "property": "C318",
   "status": "proved",
   "theorems": [
    "Verif.Props.Blti.nonce_reported",
    "Verif.Props.Blti.nonce_once",
    "Verif.Props.Blti.nonce_sample"
   ],
   "note": ""
  },
  {
   "property": "C319",
   "status": "proved",
   "theorems": [
    "Verif.Props.Blti.nonces_kept",
    "Verif.Props.Blti.nonce_sample"
   ],
   "note": ""
  },
  {
   "property": "C32",
   "status": "partial",
   "theorems": [
    "Verif.Props.class_test_correct",
    "Verif.Props.subtract_from_self_leaves_members"
   ],
   "note": "proved for every expression of additions, subtractions, unions, differences and complements of classes; refuted for the one aliasing call cls.SubtractClass(cls)"
  },
  {
   "property": "C320",
   "status": "partial",
   "theorems": [
    "Verif.Props.Blti.checked_again_refuted",
    "Verif.Props.Blti.clock_back_refuted",
    "Verif.Props.Blti.nonce_reported"
   ],
   "note": "refuted: checks that were reported do not count, and a clock that is set back lets a nonce be accepted twice at once. What is true is C318"
  },
  {
   "property": "C321",
   "status": "partial",
   "theorems": [
    "Verif.Props.Blti.key_bits_refuted",
    "Verif.Props.Blti.short_keys_refuted",
    "Verif.Props.Blti.default_key_bits",
    "Verif.Props.Blti.key_bits"
   ],
   "note": "refuted for every length that is not a multiple of 16 or one less; up to 14 bits keys are empty"
  },
  {
   "property": "C322",
   "status": "proved",
   "theorems": [
    "Verif.Props.Blti.key_inj",
    "Verif.Props.Blti.key_bits",
    "Verif.Props.Blti.default_key_bits"
   ],
   "note": ""
  },
  {
   "property": "C323",
   "status": "proved",
   "theorems": [
    "Verif.Props.Blti.new_consumer",
    "Verif.Props.Blti.lookup_put"
   ],
   "note": ""
  },
  {
   "property": "C324",
   "status": "partial",
   "theorems": [
    "Verif.Props.Blti.generated_key_refuted"
   ],
   "note": "refuted: there is no check of generated keys"
  },
  {
   "property": "C325",
   "status": "proved",
   "theorems": [
    "Verif.Props.Blti.load_save",
    "Verif.Props.Blti.generated_word",
    "Verif.Props.Blti.storable_sample"
   ],
   "note": ""
  },
  {
   "property": "C326",
   "status": "partial",
   "theorems": [
    "Verif.Props.Blti.space_in_key_refuted",
    "Verif.Props.Blti.comment_key_refuted",
    "Verif.Props.Blti.load_save"
   ],
   "note": "refuted for keys with spaces and keys that begin with #"
  },
  {
   "property": "C327",
   "status": "partial",
   "theorems": [
    "Verif.Props.Blti.load_atomic_refuted"
   ],
   "note": "refuted: consumers before the line that fails stay added"
  },
  {
   "property": "C328",
   "status": "proved",
   "theorems": [
    "Verif.Props.Abnf.abnf_accepted_starts",
    "Verif.Props.Abnf.pySort_perm",
    "Verif.Props.Abnf.choice_accepts",
    "Verif.Props.Abnf.choice_sensible",
    "Verif.Props.Abnf.choice_reach"
   ],
   "note": ""
  },
  {
   "property": "C329",
   "status": "partial",
   "theorems": [
    "Verif.Props.Abnf.abnf_refused_refuted",
    "Verif.Props.Abnf.abnf_choice_refuted",
    "Verif.Props.Abnf.abnf_refused_partial",
    "Verif.Props.Abnf.abnf_generated_not_refused_partial",
    "Verif.Props.Abnf.choice_refuses"
   ],
   "note": "refuted: the handler names a class that does not exist, so the first alternative that fails ends the search; proved for the program with the right name"
  },
  {
   "property": "C33",
   "status": "partial",
   "theorems": [
    "Verif.Props.equal_classes_same_members",
    "Verif.Props.same_members_compare_unequal",
    "Verif.Props.equal_iff_same_members_partial"
   ],
   "note": "refuted: two classes with the same members can compare unequal; the converse direction and the exact guard are proved"
  },
  {
   "property": "C330",
   "status": "proved",
   "theorems": [
    "Verif.Props.Abnf.abnf_generated_derives",
    "Verif.Props.Abnf.choice_generates"
   ],
   "note": ""
  },
  {
   "property": "C331",
   "status": "proved",
   "theorems": [
    "Verif.Props.Abnf.abnf_add_rule"
   ],
   "note": ""
  },
  {
   "property": "C332",
   "status": "proved",
   "theorems": [
    "Verif.Props.Abnf.abnf_define_rule",
    "Verif.Props.Abnf.choice_reach"
   ],
   "note": ""
  },
  {
   "property": "C333",
   "status": "partial",
   "theorems": [
    "Verif.Props.Abnf.abnf_incremental_upper_refuted",
    "Verif.Props.Abnf.abnf_incremental_reference_refuted",
    "Verif.Props.Abnf.abnf_incremental_partial"
   ],
   "note": "refuted for names with letters in upper case and for rules that were defined before; proved for names in lower case"
  },
  {
   "property": "C334",
   "status": "partial",
   "theorems": [
    "Verif.Props.Abnf.abnf_forward_refuted",
    "Verif.Props.Abnf.abnf_define_rule"
   ],
   "note": "refuted: the undefined rule is copied"
  },
  {
   "property": "C335",
   "status": "partial",
   "theorems": [
    "Verif.Props.Abnf.abnf_invalid_refuted",
    "Verif.Props.Abnf.abnf_choice_refuted"
   ],
   "note": "refuted for all data: the error is always a NameError"
  },
  {
   "property": "C336",
   "status": "partial",
   "theorems": [
    "Verif.Props.Abnf.abnf_whole_refuted",
    "Verif.Props.Abnf.abnf_accepted_starts"
   ],
   "note": "refuted: the end of the data is not checked"
  },
  {
   "property": "C337",
   "status": "partial",
   "theorems": [
    "Verif.Props.Abnf.abnf_decides_refuted",
    "Verif.Props.Abnf.idle_calls"
   ],
   "note": "refuted for repetitions of what may be empty"
  },
  {
   "property": "C338",
   "status": "proved",
   "theorems": [
    "Verif.Props.Rfc2234.rfc2234_file_is_string",
    "Verif.Props.Rfc2234.rfc2234_reads",
    "Verif.Props.Rfc2234.rfc2234_rewind_sample"
   ],
   "note": ""
  },
  {
   "property": "C339",
   "status": "proved",
   "theorems": [
    "Verif.Props.Rfc2234.rfc2234_rewind",
    "Verif.Props.Rfc2234.rfc2234_rewind_sample"
   ],
   "note": ""
  },
  {
   "property": "C34",
   "status": "partial",
   "theorems": [
    "Verif.Props.copy_not_independent",
    "Verif.Props.additions_leave_other_classes_partial"
   ],
   "note": "refuted: a copy shares its range objects with the original; additions through a class that shares nothing are proved harmless"
  },
  {
   "property": "C340",
   "status": "partial",
   "theorems": [
    "Verif.Props.AbnfText.abnf_text_refuted",
    "Verif.Props.AbnfText.alternation_end",
    "Verif.Props.AbnfText.rule_fails",
    "Verif.Props.AbnfText.literal_plain",
    "Verif.Props.AbnfText.abnf_text_sample"
   ],
   "note": "refuted for every text with a rule: the loops wait for RFC2234Error, which RFCSyntaxError is not, so they end only at the end of the text, where the end of the line is missing"
  },
  {
   "property": "C341",
   "status": "proved",
   "theorems": [
    "Verif.Props.Enumeration.enum_round_trip",
    "Verif.Props.Enumeration.enum_sample"
   ],
   "note": ""
  },
  {
   "property": "C342",
   "status": "proved",
   "theorems": [
    "Verif.Props.Enumeration.enum_lower",
    "Verif.Props.Enumeration.enum_sample"
   ],
   "note": ""
  },
  {
   "property": "C343",
   "status": "proved",
   "theorems": [
    "Verif.Props.Enumeration.enum_list_round_trip",
    "Verif.Props.Enumeration.enum_sample"
   ],
   "note": ""
  },
  {
   "property": "C344",
   "status": "partial",
   "theorems": [
    "Verif.Props.Enumeration.enum_dict_refuted",
    "Verif.Props.Enumeration.enum_sample"
   ],
   "note": "refuted for all strings: the test is after the loop, so only the last value is kept, and an empty string is an UnboundLocalError"
  },
  {
   "property": "C345",
   "status": "proved",
   "theorems": [
    "Verif.Props.Enumeration.enum_dict_order"
   ],
   "note": ""
  },
  {
   "property": "C346",
   "status": "proved",
   "theorems": [
    "Verif.Props.Enumeration.enum_errors"
   ],
   "note": ""
  },
  {
   "property": "C347",
   "status": "partial",
   "theorems": [
    "Verif.Props.Enumeration.enum_title_refuted",
    "Verif.Props.Enumeration.enum_errors"
   ],
   "note": "refuted: white space is an IndexError"
  },
  {
   "property": "C348",
   "status": "partial",
   "theorems": [
    "Verif.Props.Enumeration.enum_default_refuted",
    "Verif.Props.Enumeration.enum_round_trip"
   ],
   "note": "refuted: every other number is written as the default"
  },
  {
   "property": "C349",
   "status": "proved",
   "theorems": [
    "Verif.Props.InputWrapper.input_read",
    "Verif.Props.InputWrapper.input_sample"
   ],
   "note": ""
  },
  {
   "property": "C35",
   "status": "proved",
   "theorems": [
    "Verif.Props.uri_escape_unescape",
    "Verif.Props.uri_escape_legal",
    "Verif.Props.uri_escape_hides"
   ],
   "note": ""
  },
  {
   "property": "C350",
   "status": "proved",
   "theorems": [
    "Verif.Props.InputWrapper.input_read_all",
    "Verif.Props.InputWrapper.input_sample"
   ],
   "note": ""
  },
  {
   "property": "C351",
   "status": "proved",
   "theorems": [
    "Verif.Props.InputWrapper.input_no_more",
    "Verif.Props.InputWrapper.input_sample"
   ],
   "note": ""
  },
  {
   "property": "C352",
   "status": "proved",
   "theorems": [
    "Verif.Props.InputWrapper.input_rewind",
    "Verif.Props.InputWrapper.input_whence",
    "Verif.Props.InputWrapper.input_sample"
   ],
   "note": ""
  },
  {
   "property": "C353",
   "status": "proved",
   "theorems": [
    "Verif.Props.InputWrapper.input_line",
    "Verif.Props.InputWrapper.input_sample"
   ],
   "note": ""
  },
  {
   "property": "C354",
   "status": "partial",
   "theorems": [
    "Verif.Props.InputWrapper.input_lines_refuted"
   ],
   "note": "refuted for all bodies: the iterator asks for lines for ever; readlines ends only by a hint that is less than what is left"
  },
  {
   "property": "C355",
   "status": "partial",
   "theorems": [
    "Verif.Props.InputWrapper.input_blocks",
    "Verif.Props.InputWrapper.input_blocks_refuted"
   ],
   "note": "refuted for all sizes less than the default: maxSize is not used. Proved: the blocks make up the rest of the body"
  },
  {
   "property": "C356",
   "status": "partial",
   "theorems": [
    "Verif.Props.InputWrapper.input_seek_refuted",
    "Verif.Props.InputWrapper.input_rewind"
   ],
   "note": "refuted beyond the buffer: skipped bytes are counted twice. Proved within the buffer"
  },
  {
   "property": "C357",
   "status": "partial",
   "theorems": [
    "Verif.Props.InputWrapper.input_past_end_refuted"
   ],
   "note": "refuted: after skipped bytes were counted twice a negative size reads the stream to its end"
  },
  {
   "property": "C358",
   "status": "partial",
   "theorems": [
    "Verif.Props.Atom.atom_entry_reset",
    "Verif.Props.Atom.atom_entry_reset_refuted",
    "Verif.Props.Atom.atom_sample"
   ],
   "note": "refuted exactly for entries with a content: an AttributeError (a method that does not exist). Proved for entries without one"
  },
  {
   "property": "C359",
   "status": "partial",
   "theorems": [
    "Verif.Props.Atom.atom_feed_reset_refuted",
    "Verif.Props.Atom.atom_feed_reset"
   ],
   "note": "refuted for all feeds: entries stay, and so does the date, which is detached; what stays is stated exactly"
  },
  {
   "property": "C36",
   "status": "proved",
   "theorems": [
    "Verif.Props.uri_recompose",
    "Verif.Props.uri_str",
    "Verif.Props.uri_accepted"
   ],
   "note": ""
  },
  {
   "property": "C360",
   "status": "proved",
   "theorems": [
    "Verif.Props.Atom.atom_content_type",
    "Verif.Props.Atom.atom_sample"
   ],
   "note": ""
  },
  {
   "property": "C361",
   "status": "partial",
   "theorems": [
    "Verif.Props.Atom.atom_content_value_refuted"
   ],
   "note": "refuted for all contents: the value is not returned"
  },
  {
   "property": "C362",
   "status": "proved",
   "theorems": [
    "Verif.Props.Vfs.path_split",
    "Verif.Props.Vfs.vfs_sample"
   ],
   "note": ""
  },
  {
   "property": "C363",
   "status": "proved",
   "theorems": [
    "Verif.Props.Vfs.path_kinds",
    "Verif.Props.Vfs.vfs_sample"
   ],
   "note": ""
  },
  {
   "property": "C364",
   "status": "proved",
   "theorems": [
    "Verif.Props.Vfs.hooks_set",
    "Verif.Props.Vfs.vfs_sample"
   ],
   "note": ""
  },
  {
   "property": "C365",
   "status": "partial",
   "theorems": [
    "Verif.Props.Vfs.hooks_twice_refuted"
   ],
   "note": "refuted for all histories that end without users: the hooks of the next user are not set"
  },
  {
   "property": "C366",
   "status": "partial",
   "theorems": [
    "Verif.Props.Vfs.hooks_threads_refuted",
    "Verif.Props.Vfs.hooks_alone"
   ],
   "note": "refuted by a schedule in which an update of the count is lost; proved for one thread"
  },
  {
   "property": "C367",
   "status": "proved",
   "theorems": [
    "Verif.Props.Sniff.detect_plain",
    "Verif.Props.Sniff.sniff_sample"
   ],
   "note": ""
  },
  {
   "property": "C368",
   "status": "partial",
   "theorems": [
    "Verif.Props.Sniff.detect_mark_refuted"
   ],
   "note": "refuted for all texts that start with a character of Latin-1: no encoding is found"
  },
  {
   "property": "C369",
   "status": "proved",
   "theorems": [
    "Verif.Props.Sniff.sniff_kind",
    "Verif.Props.Sniff.sniff_sample"
   ],
   "note": ""
  },
  {
   "property": "C37",
   "status": "proved",
   "theorems": [
    "Verif.Props.path_normal_segments",
    "Verif.Props.path_normal_same_place",
    "Verif.Props.path_normal_no_dot",
    "Verif.Props.path_normal_dotdot",
    "Verif.Props.path_normal_idempotent"
   ],
   "note": ""
  },
  {
   "property": "C370",
   "status": "partial",
   "theorems": [
    "Verif.Props.Sniff.sniff_space_refuted",
    "Verif.Props.Sniff.sniff_kind"
   ],
   "note": "refuted for all bodies that start with a space; proved for other white space (C369)"
  },
  {
   "property": "C371",
   "status": "partial",
   "theorems": [
    "Verif.Props.Sniff.sniff_far_refuted",
    "Verif.Props.Sniff.sniff_kind"
   ],
   "note": "refuted for as many controls as the buffer has bytes; proved for fewer (C369)"
  },
  {
   "property": "C372",
   "status": "proved",
   "theorems": [
    "Verif.Props.AutoDetect.xml_marks"
   ],
   "note": ""
  },
  {
   "property": "C373",
   "status": "proved",
   "theorems": [
    "Verif.Props.AutoDetect.xml_no_mark"
   ],
   "note": ""
  },
  {
   "property": "C374",
   "status": "partial",
   "theorems": [
    "Verif.Props.AutoDetect.xml_mark_utf8_refuted"
   ],
   "note": "refuted for all such files: a name that is not defined, NameError"
  },
  {
   "property": "C375",
   "status": "partial",
   "theorems": [
    "Verif.Props.AutoDetect.xml_ebcdic_refuted"
   ],
   "note": "refuted for all such files: the key of the table is written with an octal escape"
  },
  {
   "property": "C376",
   "status": "proved",
   "theorems": [
    "Verif.Props.XmlLines.xml_lines",
    "Verif.Props.XmlLines.xml_lines_sample"
   ],
   "note": ""
  },
  {
   "property": "C377",
   "status": "proved",
   "theorems": [
    "Verif.Props.XmlLines.xml_lines",
    "Verif.Props.XmlLines.xml_lines_sample"
   ],
   "note": ""
  },
  {
   "property": "C378",
   "status": "partial",
   "theorems": [
    "Verif.Props.XmlLines.xml_position_refuted",
    "Verif.Props.XmlLines.xml_position_partial",
    "Verif.Props.XmlLines.xml_position_sample"
   ],
   "note": "proved for texts without carriage returns; refuted for all texts: behind a carriage return with a line feed the first character is at position 2"
  },
  {
   "property": "C379",
   "status": "proved",
   "theorems": [
    "Verif.Props.XmlLines.xml_utf8_mark",
    "Verif.Props.XmlLines.xml_utf8_sample"
   ],
   "note": ""
  },
  {
   "property": "C38",
   "status": "partial",
   "theorems": [
    "Verif.Props.uri_relative_resolve_partial",
    "Verif.Props.uri_relative_resolve_fails"
   ],
   "note": "refuted by six witnesses; proved for absolute paths without . and .. under the stated conditions. Missing: pairs of relative paths"
  },
  {
   "property": "C39",
   "status": "proved",
   "theorems": [
    "Verif.Props.expand_contained",
    "Verif.Props.expand_elsewhere",
    "Verif.Props.expand_rejects"
   ],
   "note": "Every directory made and every file written while expanding any archive is strictly below the package directory, whatever the entry names decode to; nothing else changes; an archive with a name that climbs above the directory at any point is rejected. POSIX paths without links."
  },
  {
   "property": "C40",
   "status": "partial",
   "theorems": [
    "Verif.Props.unique_file_ends",
    "Verif.Props.unique_file_inside",
    "Verif.Props.unique_file_refuses",
    "Verif.Props.unique_file_fresh_partial",
    "Verif.Props.unique_file_fails"
   ],
   "note": "refuted: candidates are looked up as text among keys that are path objects with other hashes, so an existing path can be returned (unique_file_fails). Proved: the search ends after at most one more step than the table has entries, the path is inside the package, paths elsewhere are refused, and the result is new if the suggested path is new or if the look-up by text worked."
  },
  {
   "property": "C41",
   "status": "partial",
   "theorems": [
    "Verif.Props.manifest_added",
    "Verif.Props.manifest_deleted",
    "Verif.Props.file_protected_partial"
   ],
   "note": "refuted: the test for the manifest compares a method with a string, so the manifest can be added and deleted. Proved: ignored names and paths outside the package are refused."
  },
  {
   "property": "C42",
   "status": "partial",
   "theorems": [
    "Verif.Props.bounding_box_partial",
    "Verif.Props.polygon_bounds_never_finish",
    "Verif.Props.swapped_rectangle_box",
    "Verif.Props.offset_moves_area_partial",
    "Verif.Props.polygon_offset_never_finishes"
   ],
   "note": "refuted for polygons (both loops never end) and for rectangles given by other corners; proved for all other shapes"
  },
  {
   "property": "C43",
   "status": "proved",
   "theorems": [
    "Verif.Props.polygon_even_odd",
    "Verif.Props.polygon_rectangle"
   ],
   "note": "floating point intersection modelled by exact rational arithmetic"
  },
  {
   "property": "C44",
   "status": "partial",
   "theorems": [
    "Verif.Props.name_start_test_partial",
    "Verif.Props.name_char_test_partial",
    "Verif.Props.astral_name_rejected",
    "Verif.Props.ncname_test_partial",
    "Verif.Props.astral_rejected"
   ],
   "note": "refuted above the basic multilingual plane; proved below it, and soundness everywhere"
  },
  {
   "property": "C45",
   "status": "partial",
   "theorems": [
    "Verif.Props.identifiers_collide",
    "Verif.Props.identifiers_distinct_partial"
   ],
   "note": "refuted: a.b and a_b collide; proved for legal identifiers without dots"
  },
  {
   "property": "C46",
   "status": "partial",
   "theorems": [
    "Verif.Props.view_not_legal",
    "Verif.Props.view_legal_partial"
   ],
   "note": "refuted: proctor views become invigilator, unknown views are kept; exact guard proved"
  },
  {
   "property": "C47",
   "status": "proved",
   "theorems": [
    "Verif.Props.day_of_week_correct",
    "Verif.Props.week_date_correct",
    "Verif.Props.week_date_round_trip"
   ],
   "note": ""
  },
  {
   "property": "C48",
   "status": "partial",
   "theorems": [
    "Verif.Props.impossible_week_accepted",
    "Verif.Props.week_date_set_partial"
   ],
   "note": "refuted: week 53 is accepted in every year; proved for the weeks a year has"
  },
  {
   "property": "C49",
   "status": "partial",
   "theorems": [
    "Verif.Props.date_offset_days_partial",
    "Verif.Props.date_offset_day_zero",
    "Verif.Props.date_offset_months_partial",
    "Verif.Props.date_offset_wrong"
   ],
   "note": "refuted: day zero is taken for 'not given', negative months fail, and combined offsets use the day of the starting date; day and month offsets proved otherwise"
  },
  {
   "property": "C50",
   "status": "partial",
   "theorems": [
    "Verif.Props.julian_correct",
    "Verif.Props.julian_round_trip",
    "Verif.Props.julian_day_zero"
   ],
   "note": "conversion of every valid date proved; refuted at one day: the day before the first date converts to the first date"
  },
  {
   "property": "C51",
   "status": "partial",
   "theorems": [
    "Verif.Props.time_offset_exact_partial",
    "Verif.Props.time_offset_midnight_fails",
    "Verif.Props.shift_zone_exact_partial",
    "Verif.Props.shift_zone_fails",
    "Verif.Props.shift_zone_succeeds_partial",
    "Verif.Props.shift_zone_instant_partial"
   ],
   "note": "whenever the operations succeed the instant is proved preserved; refuted: 24:00:00 cannot be moved and zones more than a day apart cannot be shifted between. Fractional seconds are not modelled"
  },
  {
   "property": "C52",
   "status": "partial",
   "theorems": [
    "Verif.Props.time_point_cmp_partial",
    "Verif.Props.time_point_cmp_midnight",
    "Verif.Props.unix_time_correct"
   ],
   "note": "refuted for 24:00 against 00:00 of the next day; proved for ordinary times in zones at most a day apart"
  },
  {
   "property": "C53",
   "status": "partial",
   "theorems": [
    "Verif.Props.uri_unescape_partial",
    "Verif.Props.uri_unescape_fails"
   ],
   "note": "refuted: a character after % and one hexadecimal digit is dropped; proved when every percent sign begins an escape"
  },
  {
   "property": "C54",
   "status": "partial",
   "theorems": [
    "Verif.Props.uri_server_partial",
    "Verif.Props.uri_server_fails"
   ],
   "note": "refuted for authorities with a port that is not numeric; proved for [userinfo@]host[:digits]"
  },
  {
   "property": "C55",
   "status": "partial",
   "theorems": [
    "Verif.Props.uri_components_shape_partial",
    "Verif.Props.uri_parse_composed_partial",
    "Verif.Props.uri_components_shape_fails"
   ],
   "note": "refuted: a reference that begins with a colon gets an empty scheme; proved for all others"
  },
  {
   "property": "C56",
   "status": "proved",
   "theorems": [
    "Verif.Props.uri_canonical",
    "Verif.Props.uri_canonical_plain"
   ],
   "note": ""
  },
  {
   "property": "C57",
   "status": "proved",
   "theorems": [
    "Verif.Props.uri_segment_params"
   ],
   "note": ""
  },
  {
   "property": "C58",
   "status": "proved",
   "theorems": [
    "Verif.Props.uri_unicode"
   ],
   "note": ""
  },
  {
   "property": "C59",
   "status": "proved",
   "theorems": [
    "Verif.Props.expand_export"
   ],
   "note": "By induction over directory trees, for every encoding of names that decodes, into an empty directory."
  },
  {
   "property": "C60",
   "status": "partial",
   "theorems": [
    "Verif.Props.delete_file",
    "Verif.Props.delete_succeeds_partial",
    "Verif.Props.delete_fails",
    "Verif.Props.files_accounted"
   ],
   "note": "A successful deletion removes the file, its table entry and all references and nothing else; the table accounts for all referenced files after any addition or deletion. refuted for packages with a reference to a file that is not a local package file: comparing None with a path raises ValueError, so nothing can be deleted (delete_fails)."
  },
  {
   "property": "C61",
   "status": "partial",
   "theorems": [
    "Verif.Props.and_three_valued",
    "Verif.Props.or_three_valued",
    "Verif.Props.not_three_valued",
    "Verif.Props.anyN_three_valued_partial",
    "Verif.Props.anyN_crossed_limits"
   ],
   "note": "and/or/not proved for all operand lists; anyN proved when min <= max, refuted for crossed limits (true instead of false)"
  },
  {
   "property": "C62",
   "status": "partial",
   "theorems": [
    "Verif.Props.multiple_unites",
    "Verif.Props.ordered_concatenates",
    "Verif.Props.mixed_base_types_rejected",
    "Verif.Props.container_size",
    "Verif.Props.member_tests_membership",
    "Verif.Props.delete_removes_all",
    "Verif.Props.index_nth",
    "Verif.Props.random_picks_member",
    "Verif.Props.match_tests_equality",
    "Verif.Props.contains_tests_reverse_partial",
    "Verif.Props.contains_is_reversed"
   ],
   "note": "all proved except contains, refuted: it tests that the second operand contains the first"
  },
  {
   "property": "C63",
   "status": "proved",
   "theorems": [
    "Verif.Props.sum_of_integers",
    "Verif.Props.product_of_integers",
    "Verif.Props.sum_of_numbers",
    "Verif.Props.product_of_numbers",
    "Verif.Props.null_operand_gives_null",
    "Verif.Props.subtract_exact",
    "Verif.Props.divide_exact",
    "Verif.Props.integer_division",
    "Verif.Props.round_nearest",
    "Verif.Props.truncate_towards_zero",
    "Verif.Props.integerToFloat_keeps",
    "Verif.Props.comparisons",
    "Verif.Props.comparison_null",
    "Verif.Props.equal_exact",
    "Verif.Props.equal_within",
    "Verif.Props.random_integer_in_range",
    "Verif.Props.random_float_in_range"
   ],
   "note": "floats are rationals; IEEE rounding, infinities and NaN are not modelled"
  },
  {
   "property": "C64",
   "status": "proved",
   "theorems": [
    "Verif.Props.eval_typed",
    "Verif.Props.evalAll_typed",
    "Verif.Props.applyOp_typed"
   ],
   "note": ""
  },
  {
   "property": "C65",
   "status": "proved",
   "theorems": [
    "Verif.Props.rules_change_outcomes_only"
   ],
   "note": ""
  },
  {
   "property": "C66",
   "status": "partial",
   "theorems": [
    "Verif.Props.assigned_value_reads_back_partial",
    "Verif.Props.multiplicity_lost"
   ],
   "note": "refuted: a multiple container keeps repeated members only once on assignment; proved for all other values"
  },
  {
   "property": "C67",
   "status": "partial",
   "theorems": [
    "Verif.Props.attempts_independent_partial",
    "Verif.Props.completion_status_carries_over",
    "Verif.Props.default_name_clash"
   ],
   "note": "refuted: completionStatus is not reset, and NAME.DEFAULT may clash with a declared variable; proved for all other outcomes"
  },
  {
   "property": "C68",
   "status": "proved",
   "theorems": [
    "Verif.Props.mapping_total",
    "Verif.Props.mapping_null",
    "Verif.Props.mapResponse_eval",
    "Verif.Props.area_mapping_total"
   ],
   "note": "bounds are assumed not crossed"
  },
  {
   "property": "C69",
   "status": "partial",
   "theorems": [
    "Verif.Props.interpolation_first_entry",
    "Verif.Props.match_table_entry_partial",
    "Verif.Props.match_table_uses_last"
   ],
   "note": "interpolation proved; match tables refuted for repeated source values (the last entry is used), proved otherwise"
  },
  {
   "property": "C70",
   "status": "partial",
   "theorems": [
    "Verif.Props.template_reference_unusable"
   ],
   "note": "refuted: every reference raises AttributeError, as a non-existent library function is called"
  },
  {
   "property": "C71",
   "status": "partial",
   "theorems": [
    "Verif.Props.substring_tests",
    "Verif.Props.stringMatch_tests",
    "Verif.Props.substring_match_tests_reverse_partial",
    "Verif.Props.substring_match_is_reversed"
   ],
   "note": "refuted for stringMatch with substring=true, which tests containment the other way round; the rest proved"
  },
  {
   "property": "C72",
   "status": "proved",
   "theorems": [
    "Verif.Props.integer_read",
    "Verif.Props.integer_round_trip",
    "Verif.Props.decimal_read",
    "Verif.Props.double_read",
    "Verif.Props.boolean_read",
    "Verif.Props.boolean_round_trip"
   ],
   "note": "INF, -INF, NaN and IEEE rounding are not modelled"
  },
  {
   "property": "C73",
   "status": "partial",
   "theorems": [
    "Verif.Props.item_scores_partial",
    "Verif.Props.condition_meaning_partial",
    "Verif.Props.response_conditions_meaning",
    "Verif.Props.setvar_float",
    "Verif.Props.setvar_integer_partial",
    "Verif.Props.limits_enforced_partial"
   ],
   "note": "proved for all items of conditions, actions and limits that migration keeps (see C15, C16, C17 for those it does not keep)"
  },
  {
   "property": "C74",
   "status": "partial",
   "theorems": [
    "Verif.Props.rtf_shown_partial",
    "Verif.Props.rtf_plain_text",
    "Verif.Props.rtf_outer_format_lost",
    "Verif.Props.rtf_group_format_lost",
    "Verif.Props.rtf_escaped_lost",
    "Verif.Props.rtf_newline_kept",
    "Verif.Props.rtf_high_characters_fail",
    "Verif.Props.rtf_colours_shown"
   ],
   "note": "refuted: groups do not inherit formatting, escaped characters are dropped, line breaks are kept, characters above U+7FFF fail, colour tables are shown; proved for all documents without these (groups opened in unformatted text, or without formatting and groups in them)"
  },
  {
   "property": "C75",
   "status": "partial",
   "theorems": [
    "Verif.Props.rtf_reported_partial",
    "Verif.Props.rtf_not_reported"
   ],
   "note": "refuted: negative or missing numbers and a final backslash raise ValueError or TypeError; proved for ASCII text whose \\u, \\uc and \\lang commands have their numbers and which does not end in a backslash"
  },
  {
   "property": "C76",
   "status": "partial",
   "theorems": [
    "Verif.Props.outcomes_begin_with_defaults_partial",
    "Verif.Props.default_name_clash"
   ],
   "note": "proved when no outcome has the name under which the default of another is kept (else refuted, default_name_clash), and for defaults that assignment keeps (C66)"
  },
  {
   "property": "C77",
   "status": "partial",
   "theorems": [
    "Verif.Props.item_document_partial",
    "Verif.Props.body_text",
    "Verif.Props.item_title_injects",
    "Verif.Props.feedback_title_lost",
    "Verif.Props.image_attributes_lost",
    "Verif.Props.image_height_lost",
    "Verif.Props.image_height_none",
    "Verif.Props.hotspot_unlimited_lost",
    "Verif.Props.normal_maximum_zero_lost",
    "Verif.Props.attribute_break_lost",
    "Verif.Props.inside_spaces",
    "Verif.Props.inline_breaks_word"
   ],
   "note": "refuted: double quotes in attributes are not escaped, feedback titles and the attributes of images and line breaks are dropped, heights depend on widths, zero maxima are dropped, coordinates of areas are separated by spaces, emphasis breaks words; proved for all items without these"
  },
  {
   "property": "C78",
   "status": "partial",
   "theorems": [
    "Verif.Props.manifest_document_partial",
    "Verif.Props.manifest_contents_partial",
    "Verif.Props.samplePackage_read",
    "Verif.Props.qti_metadata_lost",
    "Verif.Props.catalog_lost",
    "Verif.Props.vcard_injects"
   ],
   "note": "refuted: QTI metadata of a resource without files and LOM are dropped, catalog names are replaced by the entry, a vCard with ]]> can inject elements; proved for all packages without these"
  },
  {
   "property": "C79",
   "status": "partial",
   "theorems": [
    "Verif.Props.item_metadata_partial",
    "Verif.Props.item_metadata_read",
    "Verif.Props.metaSample_held",
    "Verif.Props.field_topic_lost",
    "Verif.Props.first_title_lost",
    "Verif.Props.hollow_entries",
    "Verif.Props.missing_entry_fails"
   ],
   "note": "refuted: fields with most QTI labels are dropped, a second title replaces the first, blank authors and levels make empty entries, a field without entry raises TypeError; proved exactly: what the elements and labels listened to say is kept, the last of single-valued ones"
  },
  {
   "property": "C80",
   "status": "partial",
   "theorems": [
    "Verif.Props.lom_terms_partial",
    "Verif.Props.lom_terms_refuted"
   ],
   "note": "refuted for the roles creator and owner and for statuses not in lower case; proved for contexts and difficulties, other roles, and statuses up to case"
  },
  {
   "property": "C81",
   "status": "proved",
   "theorems": [
    "Verif.Props.item_described",
    "Verif.Props.item_described_sample"
   ],
   "note": "for every item and every list of metadata that can be read"
  },
  {
   "property": "C82",
   "status": "partial",
   "theorems": [
    "Verif.Props.form_arranged_partial",
    "Verif.Props.formSample_form",
    "Verif.Props.form_arranged_refuted",
    "Verif.Props.choice_exact"
   ],
   "note": "proved for all tests in which no section that is mixed into its parent selects nothing; without that refuted: the form has None among its identifiers"
  },
  {
   "property": "C83",
   "status": "partial",
   "theorems": [
    "Verif.Props.form_made_partial",
    "Verif.Props.choice_exact",
    "Verif.Props.shuffled_section_fails",
    "Verif.Props.shuffled_section_no_form",
    "Verif.Props.empty_mix_no_form"
   ],
   "note": "proved for tests in which only items are shuffled, and that selection fails just when its rule cannot be satisfied; refuted: a section that shuffles a section always raises AttributeError, an empty section mixed into its parent IndexError"
  },
  {
   "property": "C84",
   "status": "partial",
   "theorems": [
    "Verif.Props.form_every_partial",
    "Verif.Props.plainSample_form",
    "Verif.Props.choice_exact"
   ],
   "note": "proved for tests in which only items are shuffled; missing: invisible sections mixed into their parents; refuted for shuffled sections (C83)"
  },
  {
   "property": "C85",
   "status": "proved",
   "theorems": [
    "Verif.Props.form_find"
   ],
   "note": ""
  },
  {
   "property": "C86",
   "status": "proved",
   "theorems": [
    "Verif.Props.session_forward",
    "Verif.Props.submit_advances",
    "Verif.Props.jumpEnv_session"
   ],
   "note": ""
  },
  {
   "property": "C87",
   "status": "partial",
   "theorems": [
    "Verif.Props.question_eligible",
    "Verif.Props.next_question_partial",
    "Verif.Props.next_question_total",
    "Verif.Props.navEnv_quiet",
    "Verif.Props.section_precondition_ignored"
   ],
   "note": "refuted for pre-conditions of sections and parts: a false one is ignored and the contents are asked; proved when only the pre-conditions of items have a say (parts linear, C91)"
  },
  {
   "property": "C88",
   "status": "partial",
   "theorems": [
    "Verif.Props.branch_named",
    "Verif.Props.branch_exit_test",
    "Verif.Props.branch_exit_testPart",
    "Verif.Props.branch_exit_section_partial",
    "Verif.Props.branch_bad_target",
    "Verif.Props.jumpEnv_item",
    "Verif.Props.jumpRules_inEffect",
    "Verif.Props.jumpEnv_goes",
    "Verif.Props.exit_section_refuted"
   ],
   "note": "proved for named targets, EXIT_TEST, EXIT_TESTPART and targets that are not allowed; EXIT_SECTION proved when no section follows in the section, otherwise refuted: the session goes on after the end of the section that follows"
  },
  {
   "property": "C89",
   "status": "proved",
   "theorems": [
    "Verif.Props.duration_added",
    "Verif.Props.form_balanced",
    "Verif.Props.question_duration",
    "Verif.Props.test_duration",
    "Verif.Props.begin_duration",
    "Verif.Props.submit_duration",
    "Verif.Props.jumpEnv_balanced",
    "Verif.Props.jumpEnv_session"
   ],
   "note": ""
  },
  {
   "property": "C90",
   "status": "proved",
   "theorems": [
    "Verif.Props.wrong_key_refused",
    "Verif.Props.key_once",
    "Verif.Props.keys_distinct",
    "Verif.Props.key_reused",
    "Verif.Props.jumpEnv_session"
   ],
   "note": "two requests handled within the same microsecond give the same key, which is then accepted twice (key_reused); excluded by the assumption on times"
  },
  {
   "property": "C91",
   "status": "partial",
   "theorems": [
    "Verif.Props.question_eligible",
    "Verif.Props.other_modes_fail",
    "Verif.Props.jumpEnv_session"
   ],
   "note": "refuted: questions of nonlinear parts never come up, and no page is made for parts submitted as a whole; linear parts submitted question by question are delivered (C86-C90)"
  },
  {
   "property": "C92",
   "status": "proved",
   "theorems": [
    "Verif.Props.name_of_test",
    "Verif.Props.name_of_first",
    "Verif.Props.name_unknown"
   ],
   "note": ""
  },
  {
   "property": "C93",
   "status": "partial",
   "theorems": [
    "Verif.Props.material_kept_partial",
    "Verif.Props.pSample_shown",
    "Verif.Props.material_kept_refuted"
   ],
   "note": "proved when every response has at most one rendering and no material stands where the converter drops it (the exact places are listed in RenderKept, ChoiceKept, TypedPiece); refuted otherwise: text between labels, labels with both text and other material, emphasised text of an unknown type, text around a fill-in without labels, and the prompt of an ordering on an image are lost"
  },
  {
   "property": "C94",
   "status": "proved",
   "theorems": [
    "Verif.Props.interactions_bound",
    "Verif.Props.pSample_hypotheses"
   ],
   "note": ""
  },
  {
   "property": "C95",
   "status": "partial",
   "theorems": [
    "Verif.Props.interactions_fit_partial",
    "Verif.Props.interactions_fit_refuted"
   ],
   "note": "proved when every numerical response says its type; refuted for the default type: a slider is bound to a response for identifiers"
  },
  {
   "property": "C96",
   "status": "partial",
   "theorems": [
    "Verif.Props.choices_kept_partial",
    "Verif.Props.madeOf_choice",
    "Verif.Props.choice_interaction",
    "Verif.Props.pSample_hypotheses"
   ],
   "note": "contents proved for labels with only text or only other material (otherwise lost, see C93); identifiers, order, shuffling and fixing proved in full"
  },
  {
   "property": "C97",
   "status": "partial",
   "theorems": [
    "Verif.Props.answers_allowed_partial",
    "Verif.Props.answers_allowed_refuted"
   ],
   "note": "proved when the response is single or the maximum is given; refuted otherwise: a multiple response without a maximum allows one answer"
  },
  {
   "property": "C98",
   "status": "partial",
   "theorems": [
    "Verif.Props.blanks_collected_partial",
    "Verif.Props.blanks_collected_refuted"
   ],
   "note": "proved of the presentation; refuted of items with response processing after it: the declaration and the rule are thrown away when response processing starts"
  },
  {
   "property": "C99",
   "status": "partial",
   "theorems": [
    "Verif.Props.regions_kept_partial",
    "Verif.Props.pRegions_shown",
    "Verif.Props.regions_kept_refuted"
   ],
   "note": "proved when the image is the first thing in the rendering; refuted otherwise: further images are lost, and formatted text in a region is an internal failure"
  }
 ]
}