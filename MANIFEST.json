{
 "claims": [
  {
   "property": "C01",
   "status": "proved",
   "theorems": [
    "Ics.C01_unescape_escape",
    "Ics.C01_roundtrip",
    "Ics.C01_safe"
   ],
   "note": "for every string"
  },
  {
   "property": "C02",
   "status": "proved",
   "theorems": [
    "Ics.C02_roundtrip",
    "Ics.C02_unreadable"
   ],
   "note": "equality is Python equality: a quoted value equals the plain string with the same text; str.upper is modelled for ASCII"
  },
  {
   "property": "C03",
   "status": "proved",
   "theorems": [
    "Ics.C03_only_parse_error",
    "Ics.C03_document",
    "Ics.C03_document_value_error"
   ],
   "note": "single lines: only ParseError. Extended to whole documents, where a nameless container raises ValueError (proved, and shown to happen)"
  },
  {
   "property": "C04",
   "status": "proved",
   "theorems": [
    "Ics.C04_unfold_fold",
    "Ics.C04_serialized_line"
   ],
   "note": "for every word splitter whose chunks concatenate to the text"
  },
  {
   "property": "C05",
   "status": "partial",
   "theorems": [
    "Ics.C05_width",
    "Ics.C05_width_one",
    "Ics.C05_octets_partial",
    "Ics.C05_octets_fails"
   ],
   "note": "the character limit holds for every width >= 2; the RFC octet limit holds for ASCII and is false otherwise (counterexample valid for every word splitter)"
  },
  {
   "property": "C06",
   "status": "proved",
   "theorems": [
    "Ics.C06_fold_independent"
   ],
   "note": ""
  },
  {
   "property": "C07",
   "status": "proved",
   "theorems": [
    "Ics.C07_eol_independent",
    "Ics.C07_blank_lines"
   ],
   "note": "also for mixed line endings"
  },
  {
   "property": "C08",
   "status": "proved",
   "theorems": [
    "Ics.C08_roundtrip"
   ],
   "note": ""
  },
  {
   "property": "C09",
   "status": "proved",
   "theorems": [
    "Ics.C09_lossless",
    "Ics.C09_iff_nested",
    "Ics.C09_error"
   ],
   "note": "an END outside of any container is kept as an ordinary line by the code; the specification says so"
  },
  {
   "property": "C10",
   "status": "proved",
   "theorems": [
    "Ics.C10_roundtrip",
    "Ics.C10_safe",
    "Ics.C10_injective"
   ],
   "note": ""
  },
  {
   "property": "C11",
   "status": "proved",
   "theorems": [
    "Ics.C11_roundtrip",
    "Ics.C11_split_lossless",
    "Ics.C11_empty"
   ],
   "note": "the list with a single empty text is read back as such; the empty list is not distinguishable from it (C11_empty)"
  },
  {
   "property": "C12",
   "status": "proved",
   "theorems": [
    "Ics.C12_iff_grammar",
    "Ics.C12_error"
   ],
   "note": ""
  },
  {
   "property": "C13",
   "status": "proved",
   "theorems": [
    "Ics.C13_roundtrip",
    "Ics.C13_truncates"
   ],
   "note": ""
  },
  {
   "property": "C14",
   "status": "partial",
   "theorems": [
    "Ics.C14_partial",
    "Ics.C14_fails",
    "Ics.C14_reads_grammar"
   ],
   "note": "false for durations with hours and seconds but no minutes (PT1H5S); exact characterisation proved; reading accepts the whole grammar"
  },
  {
   "property": "C15",
   "status": "proved",
   "theorems": [
    "Ics.C15_roundtrip",
    "Ics.C15_form"
   ],
   "note": ""
  },
  {
   "property": "C16",
   "status": "partial",
   "theorems": [
    "Ics.C16_naive_partial",
    "Ics.C16_utc_partial",
    "Ics.C16_date_partial",
    "Ics.C16_year999_fails",
    "Ics.C16_year99_fails"
   ],
   "note": "proved for every year when the platform pads %Y to four digits, and for years from 1000 on elsewhere; false (counterexample theorems) for years below 1000 where strftime does not pad"
  },
  {
   "property": "C17",
   "status": "partial",
   "theorems": [
    "Ics.C17_partial",
    "Ics.C17_local_fails",
    "Ics.C17_unserializable",
    "Ics.C17_rejects_utc_and_tzid",
    "Ics.C17_rejects_multiple"
   ],
   "note": "proved for zones with a TZID found again by the reader; false for dateutil local times, whose zone is lost"
  },
  {
   "property": "C18",
   "status": "proved",
   "theorems": [
    "Ics.C18_bool",
    "Ics.C18_int",
    "Ics.C18_int_limit",
    "Ics.C18_binary"
   ],
   "note": "integers above 4300 digits are refused with ValueError by Python itself (C18_int_limit)"
  },
  {
   "property": "C20",
   "status": "proved",
   "theorems": [
    "Ics.C20"
   ],
   "note": "construction succeeds iff the span is WellFormed; WellFormed spells out the exact (asymmetric) half-second tolerance of the precision check"
  },
  {
   "property": "C21",
   "status": "proved",
   "theorems": [
    "Ics.C21_wellformed",
    "Ics.C21_atomic",
    "Ics.C21_effect"
   ],
   "note": "arbitrary lists of edits, failing edits included"
  },
  {
   "property": "C22",
   "status": "partial",
   "theorems": [
    "Ics.C22_partial",
    "Ics.C22_exists",
    "Ics.C22_default",
    "Ics.C22_fails"
   ],
   "note": "false when begin and end have different zones or a fold: counterexample"
  },
  {
   "property": "C23",
   "status": "partial",
   "theorems": [
    "Ics.C23_to_duration_partial",
    "Ics.C23_to_end_partial",
    "Ics.C23_fold_fails",
    "Ics.C23_fraction_fails",
    "Ics.C23_unset_all_day_fails"
   ],
   "note": "false for a fold end, a fractional end within tolerance, and after unset_all_day (precision \"seconds\" is not a key)"
  },
  {
   "property": "C24",
   "status": "partial",
   "theorems": [
    "Ics.C24_partial",
    "Ics.C24_fails"
   ],
   "note": "false on the last representable days (OverflowError)"
  },
  {
   "property": "C25",
   "status": "partial",
   "theorems": [
    "Ics.C25_all_day",
    "Ics.C25_convert_partial",
    "Ics.C25_local_partial",
    "Ics.C25_duration_partial",
    "Ics.C25_succeeds_partial",
    "Ics.C25_convert_fails",
    "Ics.C25_duration_fails",
    "Ics.C25_replace_partial",
    "Ics.C25_replace_fails"
   ],
   "note": "false around DST changes: conversion may raise ValueError, an end given as duration may move"
  },
  {
   "property": "C51",
   "status": "proved",
   "theorems": [
    "Ics.C51_floor",
    "Ics.C51_ceil",
    "Ics.C51_days"
   ],
   "note": ""
  },
  {
   "property": "C26",
   "status": "proved",
   "theorems": [
    "Ics.C26_spans",
    "Ics.C26_entries",
    "Ics.C26_errors"
   ],
   "note": "the only possible exception is OverflowError at the ends of the calendar (years 1 and 9999)"
  },
  {
   "property": "C27",
   "status": "partial",
   "theorems": [
    "Ics.C27_chronological_partial",
    "Ics.C27_entries_partial",
    "Ics.C27_transitive_partial",
    "Ics.C27_fails"
   ],
   "note": "proved for times outside the gaps and overlaps of their zones; false in general: a cycle of three events around the end of DST"
  },
  {
   "property": "C28",
   "status": "partial",
   "theorems": [
    "Ics.C28_to_end",
    "Ics.C28_to_duration_partial",
    "Ics.C28_fails"
   ],
   "note": "false for an end in the second pass of a repeated hour"
  },
  {
   "property": "C29",
   "status": "partial",
   "theorems": [
    "Ics.C29_begin_partial",
    "Ics.C29_end_partial",
    "Ics.C29_due_partial",
    "Ics.C29_fails",
    "Ics.C29_event_fails"
   ],
   "note": "false for times before 1900 and for events whose end equals their begin"
  },
  {
   "property": "C30",
   "status": "partial",
   "theorems": [
    "Ics.C30_symm",
    "Ics.C30_exact_partial",
    "Ics.C30_common",
    "Ics.C30_partial",
    "Ics.C30_fails"
   ],
   "note": "false for spans that touch: exact characterisation proved"
  },
  {
   "property": "C31",
   "status": "partial",
   "theorems": [
    "Ics.C31_swap",
    "Ics.C31_instant_partial",
    "Ics.C31_includes",
    "Ics.C31_converse_partial",
    "Ics.C31_fails",
    "Ics.C31_instant_fails"
   ],
   "note": "converse false when the ends coincide; instants wrong inside a repeated hour"
  },
  {
   "property": "C32",
   "status": "partial",
   "theorems": [
    "Ics.C32_fails",
    "Ics.C32_partial"
   ],
   "note": "false for every todo with begin and due: AttributeError; agreement proved for plain spans"
  },
  {
   "property": "C50",
   "status": "partial",
   "theorems": [
    "Ics.C50_time_aware",
    "Ics.C50_time_idempotent",
    "Ics.C50_time_instant",
    "Ics.C50_none_fails",
    "Ics.C50_span_aware",
    "Ics.C50_span_idempotent",
    "Ics.C50_span_instant_partial",
    "Ics.C50_floating",
    "Ics.C50_span_kept",
    "Ics.C50_span_replaced",
    "Ics.C50_all_day",
    "Ics.C50_calendar",
    "Ics.C50_calendar_idempotent",
    "Ics.C50_calendar_not_atomic"
   ],
   "note": "replacement None is not idempotent; ends given as duration may move"
  },
  {
   "property": "C33",
   "status": "partial",
   "theorems": [
    "Ics.C33_exactly",
    "Ics.C33_spans",
    "Ics.C33_no_error",
    "Ics.C33_begin_partial",
    "Ics.C33_sorted_partial",
    "Ics.C33_fails",
    "Ics.C33_all_day_fails"
   ],
   "note": "exactly the timed events, always; order for times outside gaps and overlaps; false for equal events in different zones; all-day events make a normalizing timeline raise"
  },
  {
   "property": "C34",
   "status": "partial",
   "theorems": [
    "Ics.C34_included",
    "Ics.C34_overlapping",
    "Ics.C34_arguments",
    "Ics.C34_included_partial",
    "Ics.C34_overlapping_partial",
    "Ics.C34_subset_partial",
    "Ics.C34_at_partial",
    "Ics.C34_start_after_partial"
   ],
   "note": "filters: always; in terms of instants and the subset claim: for times outside gaps and overlaps"
  },
  {
   "property": "C35",
   "status": "partial",
   "theorems": [
    "Ics.C35_partial",
    "Ics.C35_strict_partial",
    "Ics.C35_second_fails",
    "Ics.C35_touching_fails"
   ],
   "note": "false in the last second of a day and for events touching midnight"
  },
  {
   "property": "C53",
   "status": "partial",
   "theorems": [
    "Ics.C53_exact_partial",
    "Ics.C53_partial",
    "Ics.C53_fails"
   ],
   "note": "false unless local time is UTC"
  },
  {
   "property": "C19",
   "status": "partial",
   "theorems": [
    "Ics.C19_fails",
    "Ics.C19_start_partial",
    "Ics.C19_explicit_partial",
    "Ics.C19_dates_partial"
   ],
   "note": "false for every period: the period converter only has the date formats, so no written period is ever read; what is proved is the text written and what dates it reads"
  },
  {
   "property": "C36",
   "status": "proved",
   "theorems": [
    "Ics.C36_latest",
    "Ics.C36_answers",
    "Ics.C36_unique",
    "Ics.C36_single"
   ],
   "note": "recurrence rules are any set of onsets with a lawful before()"
  },
  {
   "property": "C37",
   "status": "partial",
   "theorems": [
    "Ics.C37_partial",
    "Ics.C37_either_partial",
    "Ics.C37_unambiguous_partial",
    "Ics.C37_fails",
    "Ics.C37_cache_bounded"
   ],
   "note": "false: the cache ignores fold; proved for histories that never ask the same wall time with another fold, and that any answer is one of the two folds"
  },
  {
   "property": "C54",
   "status": "proved",
   "theorems": [
    "Ics.C54_no_begin",
    "Ics.C54_no_end",
    "Ics.C54_not_needed"
   ],
   "note": "todos are excluded: their queries always raise AttributeError (C32)"
  },
  {
   "property": "C55",
   "status": "partial",
   "theorems": [
    "Ics.C55_partial",
    "Ics.C55_strict_partial"
   ],
   "note": "missing: empty events, events touching midnight (false there, see C35), times in gaps and overlaps, the last day of the year 9999"
  },
  {
   "property": "C38",
   "status": "proved",
   "theorems": [
    "Ics.C38_alarm",
    "Ics.C38_entry",
    "Ics.C38_calendar",
    "Ics.C38_write_alarm",
    "Ics.C38_write",
    "Ics.C38_write_calendar",
    "Ics.C38_alarm_roundtrip",
    "Ics.C38_entry_roundtrip",
    "Ics.C38_calendar_roundtrip"
   ],
   "note": "a VTIMEZONE component itself is read and written by an abstract library function; the set of unknown names is what the code understands (CLASS, TRANSP, PERCENT-COMPLETE and CALSCALE are unknown to it)"
  },
  {
   "property": "C39",
   "status": "proved",
   "theorems": [
    "Ics.C39_entry",
    "Ics.C39_entry_repeated",
    "Ics.C39_alarm",
    "Ics.C39_calendar",
    "Ics.C39_inside",
    "Ics.C39_required"
   ],
   "note": "loading always fails; the error is ValueError unless the text without the repeated line (or with any lines added at the end, for missing VERSION/PRODID) already gives another error, e.g. AssertionError for a component called SUMMARY"
  },
  {
   "property": "C40",
   "status": "partial",
   "theorems": [
    "Ics.C40_entry_partial",
    "Ics.C40_alarm",
    "Ics.C40_calendar",
    "Ics.C40_fails"
   ],
   "note": "false for events/todos with both DTEND and DUE: the last one wins; proved for everything else"
  },
  {
   "property": "C49",
   "status": "partial",
   "theorems": [
    "Ics.C49_entry_partial",
    "Ics.C49_alarm_partial",
    "Ics.C49_spelling_partial",
    "Ics.C49_attendees_fail"
   ],
   "note": "false for several attendees on one line: the event loads but can never be written (C49_attendees_fail); other spellings of the same values are written back in canonical spelling"
  },
  {
   "property": "C42",
   "status": "partial",
   "theorems": [
    "Ics.C42_alarm_partial",
    "Ics.C42_entry_partial",
    "Ics.C42_calendar_partial",
    "Ics.C42_dtend_fails",
    "Ics.C42_parsed"
   ],
   "note": "false for DTEND: its parameters are always lost (stored under END, looked up under DTEND); a parameter called __merge_next is lost on lists; custom alarms excluded (see C52); DUE in an event is dropped"
  },
  {
   "property": "C41",
   "status": "partial",
   "theorems": [
    "Ics.C41_roundtrip_partial",
    "Ics.C41_timeless_fails",
    "Ics.C41_end_params_fails",
    "Ics.C41_list_params_fails"
   ],
   "note": "Proved for every representable event and todo (RepEntry), with its alarms, for readers that know the zones used. Equality fails for events without any time (precision becomes None), for parameters of DTEND, and extra_params of fresh lists gain merge marks."
  },
  {
   "property": "C52",
   "status": "partial",
   "theorems": [
    "Ics.C52_rejects",
    "Ics.C52_read",
    "Ics.C52_standard",
    "Ics.C52_same_class",
    "Ics.C52_custom_fails"
   ],
   "note": "Class, rejection and rereading proved for the four standard alarms; false for custom alarms: two ACTION lines are written, which never can be read."
  },
  {
   "property": "C43",
   "status": "partial",
   "theorems": [
    "Ics.C43_defined_once",
    "Ics.C43_describes_partial",
    "Ics.C43_only_used",
    "Ics.C43_same_name_fails",
    "Ics.C43_extra_fails"
   ],
   "note": "For calendars whose TZID parameters all come from date-times (none hidden in extra lines or extra_params): every TZID has exactly one VTIMEZONE of that name, it is what is written for a zone of one of the date-times, and no VTIMEZONE is written for a zone not used. Missing: when two zones share a name only the first is written (C43_same_name_fails), and TZIDs on lines that are kept as extra have no VTIMEZONE (C43_extra_fails); that the VTIMEZONE describes the rules of the zone is the subject of C37 (timezone) and of the abstract Lib.tzDump."
  },
  {
   "property": "C56",
   "status": "proved",
   "theorems": [
    "Ics.C56_roundtrip"
   ],
   "note": "For every representable calendar (RepCalendar), provided that the VTIMEZONE written for each of its zones is read as that zone (Lib.tzDump, Lib.tzLoad are abstract)."
  },
  {
   "property": "C57",
   "status": "proved",
   "theorems": [
    "Ics.C57_roundtrip"
   ],
   "note": "For every representable (RepCalendar) and writable (WritableCalendar) calendar. About the zones in zs it is assumed that they survive themselves (ZoneTrip: what tzDump writes is a writable tree, and tzLoad reads it, up to quotation marks, as the same zone); C61 proves this for zones that are Timezone objects."
  },
  {
   "property": "C58",
   "status": "proved",
   "theorems": [
    "Ics.C58_one",
    "Ics.C58_empty",
    "Ics.C58_several",
    "Ics.C58_multiple"
   ],
   "note": "C58_one: whatever Calendar(text) accepts is exactly one VCALENDAR; the errors for empty and longer texts; C58_multiple: parse_multiple returns all calendars in order."
  },
  {
   "property": "C44",
   "status": "partial",
   "theorems": [
    "Ics.C44_attributes",
    "Ics.C44_component_partial",
    "Ics.C44_extra_fails",
    "Ics.C44_deep_shared",
    "Ics.C44_deep_partial",
    "Ics.C44_nested_fails"
   ],
   "note": "All attributes equal; whole component equal iff it has no extra lines and no extra_params (clone drops them, C44_extra_fails). Deep clone: equal to the original and sharing nothing outside nested containers; false for nested containers, whose contents are shared (C44_nested_fails)."
  },
  {
   "property": "C45",
   "status": "partial",
   "theorems": [
    "Ics.C45_history_partial",
    "Ics.C45_atomic",
    "Ics.C45_checked",
    "Ics.C45_extend_fails",
    "Ics.C45_extend_iter_fails",
    "Ics.C45_setitem_fails",
    "Ics.C45_positions",
    "Ics.C45_del_slice",
    "Ics.C45_set_slice",
    "Ics.C45_index",
    "Ics.C45_index_error",
    "Ics.C45_insert",
    "Ics.C45_set_range"
   ],
   "note": "Effects equal to list operations and only items held through any history whose extend and item-assignment arguments are proper; atomicity for the other operations. False for extend and __setitem__, which change the list before validating it."
  },
  {
   "property": "C46",
   "status": "proved",
   "theorems": [
    "Ics.C46_scoped"
   ],
   "note": ""
  },
  {
   "property": "C47",
   "status": "partial",
   "theorems": [
    "Ics.C47_history_partial",
    "Ics.C47_atomic",
    "Ics.C47_library_partial",
    "Ics.C47_base_class_fails"
   ],
   "note": "For every history and every class hierarchy in which no class adds fields to a class that was itself instantiated and assigned; in particular for all concrete classes of the library. False in general: the first assignment on an instance of a base class fills a cache that subclasses inherit, and their own fields are no longer validated."
  },
  {
   "property": "C48",
   "status": "partial",
   "theorems": [
    "Ics.C48_history",
    "Ics.C48_independent",
    "Ics.C48_other_params",
    "Ics.C48_defaults",
    "Ics.C48_survive_partial",
    "Ics.C48_uri_fails",
    "Ics.C48_empty_fails",
    "Ics.C48_case_fails",
    "Ics.C48_string_fails"
   ],
   "note": "Independent variables: proved for every history with values of the type of the property, starting from any parameters. Survival: proved for text and boolean properties and for URIs without delimiters; false for URIs with a colon, semicolon or comma (reading raises AttributeError after one round trip, C48_uri_fails), for empty values (the line becomes unreadable), and lower-case parameter names are not found."
  },
  {
   "property": "C59",
   "status": "partial",
   "theorems": [
    "Ics.C59_roundtrip_partial",
    "Ics.C59_answers_partial",
    "Ics.C59_empty_fails",
    "Ics.C59_start_zone_fails",
    "Ics.C59_date_zone_fails",
    "Ics.C59_no_start",
    "Ics.C59_one_start",
    "Ics.C59_dates_sorted",
    "Ics.C59_rule_lines"
   ],
   "note": "Proved for zones whose recurrence sets are not empty, start at one floating time and contain floating dates in any order; what dateutil makes of the written recurrence lines is a hypothesis (RepRules, any function f on rule sets), and the answers are the same if the rules it finds have the same occurrences. False for an empty recurrence set (written, but unreadable), for rules that start in a zone (the zone is lost) and for dates in a zone (AttributeError)."
  },
  {
   "property": "C60",
   "status": "proved",
   "theorems": [
    "Ics.C60_read",
    "Ics.C60_required",
    "Ics.C60_no_observances"
   ],
   "note": "The recurrence set is whatever dateutil.rrule.rrulestr makes of the serialized recurrence lines (a parameter of the model). A VTIMEZONE without observances is accepted although RFC 5545 requires one; its zone answers no query."
  },
  {
   "property": "C61",
   "status": "partial",
   "theorems": [
    "Ics.C61_zone_partial",
    "Ics.C61_calendar_partial",
    "Ics.C61_multiple_partial"
   ],
   "note": "C57/C58 and C59 put together: the VTIMEZONEs in the text are written and read by the model of Timezone, not by an assumption. Partial because of the hypotheses of C59 (RepTz, with what dateutil makes of the recurrence lines)."
  },
  {
   "property": "C62",
   "status": "partial",
   "theorems": [
    "Ics.C62_same_partial",
    "Ics.C62_slash_fails",
    "Ics.C62_twice",
    "Ics.C62_line",
    "Ics.C62_brackets",
    "Ics.C62_parts"
   ],
   "note": "Proved for every text except those whose URL has a scheme of uses_netloc, no // and a relative path, such as http:foo, which is written as http:///foo (C62_slash_fails says what happens for all of them); writing and reading twice is the same as once for all. The tables of unicodedata/ipaddress that urlparse consults are arbitrary (UrlChecks)."
  },
  {
   "property": "C63",
   "status": "partial",
   "theorems": [
    "Ics.C63_utc",
    "Ics.C63_fixed_partial",
    "Ics.C63_named_utc_fails",
    "Ics.C63_named_utc_written",
    "Ics.C63_local",
    "Ics.C63_errors",
    "Ics.C63_by_name",
    "Ics.C63_pytz_fixed",
    "Ics.C63_database",
    "Ics.C63_file_partial",
    "Ics.C63_survives",
    "Ics.C63_to_builtin"
   ],
   "note": "Partial because zones that are named UTC (in any case) count as UTC whatever their offset is (C63_named_utc_fails), zones with offset zero lose their name, and the files of the database that are found again are those for which C59 holds. What class a foreign tzinfo object has, and the texts of the package ics_vtimezones, are arbitrary."
  },
  {
   "property": "C64",
   "status": "proved",
   "theorems": [
    "Ics.C64_line",
    "Ics.C64_document",
    "Ics.C64_container"
   ],
   "note": "No hypothesis on the text but that it is accepted (and, for documents, has no END line outside of containers); combines inversion of the parser with C04/C05."
  },
  {
   "property": "C65",
   "status": "proved",
   "theorems": [
    "Ics.C65_entry",
    "Ics.C65_calendar",
    "Ics.C65_text"
   ],
   "note": "From the text alone: the values that are read are shown to be representable and writable (C41, C56, C57), so only what is listed in SafeCalendarItems/SafeCalendar is assumed."
  },
  {
   "property": "C66",
   "status": "proved",
   "theorems": [
    "Ics.C66_same",
    "Ics.C66_entry",
    "Ics.C66_calendar",
    "Ics.C66_text",
    "Ics.C66_accepted"
   ],
   "note": "Exact equality of items and of texts; the hypotheses are those of C41, C56, C57 and C65."
  },
  {
   "property": "C67",
   "status": "proved",
   "theorems": [
    "Ics.C67_refused",
    "Ics.C67_effect",
    "Ics.C67_again",
    "Ics.C67_own_lines",
    "Ics.C67_entry",
    "Ics.C67_calendar"
   ],
   "note": "The changes are in place; dictionaries shared with another component (after clone) are not modelled. Members (alarms, events, todos) are not stripped by the code, which the theorems say."
  },
  {
   "property": "C68",
   "status": "proved",
   "theorems": [
    "Ics.C68_sorted",
    "Ics.C68_lookup",
    "Ics.C68_tables",
    "Ics.C68_zones",
    "Ics.C68_attributes",
    "Ics.C68_types",
    "Ics.C68_registered",
    "Ics.C68_priority",
    "Ics.C68_values",
    "Ics.C68_order",
    "Ics.C68_optional_list_fails"
   ],
   "note": "C68_tables and C68_zones are closed computations over the finite class definitions of the library (the whole domain); the rest is for any definition. Finding: an Optional[List[...]] annotation is refused whatever is registered; CAL-ADDRESS has no registered converter because its class is never instantiated."
  },
  {
   "property": "C69",
   "status": "partial",
   "theorems": [
    "Ics.C69_join",
    "Ics.C69_lines",
    "Ics.C69_calendar",
    "Ics.C69_read_partial",
    "Ics.C69_roundtrip_partial",
    "Ics.C69_fails",
    "Ics.C69_str"
   ],
   "note": "False for texts with VT, FF, FS, GS, RS, NEL, LS or PS: str.splitlines breaks lines there, which the parser does not (C69_fails: readable from the text, ParseError from the lines). The last line has no line end although the docstring promises lines with line endings (C69_calendar)."
  },
  {
   "property": "C70",
   "status": "partial",
   "theorems": [
    "Ics.C70_naive",
    "Ics.C70_zone_partial",
    "Ics.C70_known",
    "Ics.C70_short",
    "Ics.C70_read_utc",
    "Ics.C70_utc_tzid",
    "Ics.C70_range",
    "Ics.C70_utc_fails",
    "Ics.C70_local_fails"
   ],
   "note": "False for UTC: is_utc takes a time for a tzinfo and is never true, so a time read from 133742Z is written as 133742 with TZID=UTC (C70_utc_fails). False for local time, which loses its zone (C70_local_fails)."
  },
  {
   "property": "C71",
   "status": "partial",
   "theorems": [
    "Ics.C71_eq",
    "Ics.C71_other",
    "Ics.C71_equivalence",
    "Ics.C71_set_eq",
    "Ics.C71_hash_partial",
    "Ics.C71_set_hash_partial",
    "Ics.C71_hash_fails",
    "Ics.C71_str_partial",
    "Ics.C71_exrule",
    "Ics.C71_str_fails"
   ],
   "note": "rrule_hash depends on the order of _original_rule, rrule_eq does not: equal rules may have different hashes (C71_hash_fails; whether dateutil can build such a pair is outside the model). The text of an excluded rule that starts with its DTSTART is EXTSTART... and keeps its RRULE (C71_str_fails)."
  },
  {
   "property": "C72",
   "status": "partial",
   "theorems": [
    "Ics.C72_succeeds",
    "Ics.C72_begin_fails",
    "Ics.C72_duration_fails",
    "Ics.C72_half_second_fails"
   ],
   "note": "The documented rounding does not happen: for every all-day entry a begin or end that is no naive midnight and a duration more than half a second over full days are refused with ValueError (C72_begin_fails, C72_duration_fails); up to half a second over full days is stored as it is, so that the entry does not end at midnight (C72_half_second_fails)."
  },
  {
   "property": "C73",
   "status": "proved",
   "theorems": [
    "Ics.C73_replace",
    "Ics.C73_replace_nothing",
    "Ics.C73_setters",
    "Ics.C73_shows",
    "Ics.C73_fixed",
    "Ics.C73_summary"
   ],
   "note": "str of datetime and timedelta are parameters of the model; the description is the list of segments before they are joined by spaces."
  },
  {
   "property": "C74",
   "status": "proved",
   "theorems": [
    "Ics.C74_accepts",
    "Ics.C74_rejects",
    "Ics.C74_unique",
    "Ics.C74_distinct"
   ],
   "note": "The grammar (Spec/Grammar.lean) does not refer to the parser. str.upper is modelled on ASCII only."
  },
  {
   "property": "C75",
   "status": "partial",
   "theorems": [
    "Ics.C75_check",
    "Ics.C75_refused",
    "Ics.C75_pattern_partial",
    "Ics.C75_pattern_fails",
    "Ics.C75_unmatched_fails"
   ],
   "note": "False both ways. The check only looks at the first character of the name and of the names of the parameters (C75_check): re.match needs no match to the end, and the last assertion is about the name instead of the value; a line with control characters in the value passes (C75_unmatched_fails). Lines that the pattern matches are accepted and read as its groups if no parameter ends with an empty unquoted value and the carets are well-formed (C75_pattern_partial), and not in general (C75_pattern_fails)."
  },
  {
   "property": "C76",
   "status": "proved",
   "theorems": [
    "Ics.C76_duration",
    "Ics.C76_duration_unique",
    "Ics.C76_duration_errors",
    "Ics.C76_duration_lenient",
    "Ics.C76_offset",
    "Ics.C76_offset_errors",
    "Ics.C76_offset_lenient",
    "Ics.C76_datetime",
    "Ics.C76_zoned",
    "Ics.C76_zones",
    "Ics.C76_date",
    "Ics.C76_datetime_lenient"
   ],
   "note": "The languages are in Spec/Accepts.lean, with the calendar counted month by month. They are larger than those of RFC 5545 (the _lenient theorems). Digits are ASCII in the model; str.isdigit and strptime also know others."
  },
  {
   "property": "C77",
   "status": "partial",
   "theorems": [
    "Ics.C77_meaning_partial",
    "Ics.C77_instant_partial",
    "Ics.C77_no_span",
    "Ics.C77_own_first",
    "Ics.C77_span",
    "Ics.C77_converse",
    "Ics.C77_todo_fails"
   ],
   "note": "The times must not be in an hour that occurs twice (C31_instant_fails), and todos without both times make the queries fail (C77_todo_fails). Instants given to the other four queries, and None, are AttributeErrors (C77_no_span)."
  },
  {
   "property": "C78",
   "status": "partial",
   "theorems": [
    "Ics.C78_same",
    "Ics.C78_unfold",
    "Ics.C78_lines",
    "Ics.C78_nested",
    "Ics.C78_container_partial",
    "Ics.C78_container_fails"
   ],
   "note": "Proved for content lines. A container that begins with an empty container has line_nr -1, and the number of a container is not that of its BEGIN line (C78_container_fails)."
  },
  {
   "property": "C79",
   "status": "proved",
   "theorems": [
    "Ics.C79_culprit",
    "Ics.C79_text",
    "Ics.C79_not_split",
    "Ics.C79_str",
    "Ics.C79_str_empty",
    "Ics.C79_str_none",
    "Ics.C79_readable"
   ],
   "note": "Which messages there are and what is at their columns is the inductive predicate Culprit of Spec/Located.lean. Errors about escapes in parameter values and about nesting have no line number (they are of these kinds without one). The state in the message, the repr of the parser, is any text."
  },
  {
   "property": "C80",
   "status": "proved",
   "theorems": [
    "Ics.C80_faults",
    "Ics.C80_errors",
    "Ics.C80_rejects",
    "Ics.C80_overflow",
    "Ics.C80_multiple",
    "Ics.C80_occur",
    "Ics.C80_last_end"
   ],
   "note": "The reasons are the inductive predicates of Spec/Faults.lean. What a VTIMEZONE raises is a parameter of the model here. Each of the exceptions occurs (C80_occur): in particular reading malformed text raises IndexError, TypeError, OverflowError, AssertionError and AttributeError, which are not among the documented ones. The conversion to UTC of CREATED etc. depends on the zones, so that the converse for OverflowError is stated for durations and all-day entries only (C80_overflow)."
  },
  {
   "property": "C81",
   "status": "proved",
   "theorems": [
    "Ics.C81_faults",
    "Ics.C81_accepted",
    "Ics.C81_dates",
    "Ics.C81_dates_mixed",
    "Ics.C81_calendar",
    "Ics.C81_occur",
    "Ics.C81_calendar_occur"
   ],
   "note": "An observance without DTSTART, RRULE, RDATE, EXRULE and EXDATE is a KeyError (C81_occur, C81_calendar_occur), which is not among the documented exceptions of reading a calendar. rrulestr of dateutil is a parameter."
  },
  {
   "property": "C82",
   "status": "proved",
   "theorems": [
    "Ics.C82_faults",
    "Ics.C82_plain",
    "Ics.C82_exact",
    "Ics.C82_typed",
    "Ics.C82_new",
    "Ics.C82_assign",
    "Ics.C82_late",
    "Ics.C82_late_list",
    "Ics.C82_occur"
   ],
   "note": "Finding: summary, uid, description, location, url, transparent, scale, method, repeat, the texts of alarms and the elements of all lists are not checked when they are assigned; a wrong type is noticed only when the calendar is written (C82_late, C82_late_list)."
  },
  {
   "property": "C83",
   "status": "proved",
   "theorems": [
    "Ics.C83_typed",
    "Ics.C83_written",
    "Ics.C83_raises",
    "Ics.C83_text",
    "Ics.C83_occur"
   ],
   "note": "Finding: `ATTENDEE:mailto:a@x.org,mailto:b@x.org` is read without complaint, but `serialize` then raises ValueError (C83_occur)."
  },
  {
   "property": "C84",
   "status": "proved",
   "theorems": [
    "Ics.C84_faults",
    "Ics.C84_exact",
    "Ics.C84_read",
    "Ics.C84_errors",
    "Ics.C84_calendar",
    "Ics.C84_occur",
    "Ics.C84_equal_dates"
   ],
   "note": "Finding: RDATE and EXDATE are written without a context, so a date with a named zone other than UTC raises AttributeError ('NoneType' object has no attribute 'setdefault') (C84_occur)."
  },
  {
   "property": "C85",
   "status": "proved",
   "theorems": [
    "Ics.C85_same",
    "Ics.C85_newline",
    "Ics.C85_read",
    "Ics.C85_recurrence",
    "Ics.C85_width_one_fails"
   ],
   "note": "Finding: a line of 74 or 75 characters is written by serialize(newline=True) with an extra line that consists of a space. That the line break is a word of its own, which C85_newline assumes, is true of the words of textwrap if the value does not end in white space."
  },
  {
   "property": "C86",
   "status": "proved",
   "theorems": [
    "Ics.C86_line",
    "Ics.C86_text",
    "Ics.C86_container"
   ],
   "note": "The sufficient direction is C02 and C08; with the other direction the conditions are exact."
  },
  {
   "property": "C87",
   "status": "proved",
   "theorems": [
    "Ics.C87_read",
    "Ics.C87_timeline",
    "Ics.C87_no_error",
    "Ics.C87_utc_sorted",
    "Ics.C87_fails"
   ],
   "note": "Reading and the contents of the timeline are proved in full. That iterating raises nothing needs that the ends exist: false for an all-day event on 9999-12-31 that can be read (C87_fails). The order is proved for times in UTC; for other zones it is false in general, see C33."
  },
  {
   "property": "C88",
   "status": "proved",
   "theorems": [
    "Ics.C88_alarm",
    "Ics.C88_entry",
    "Ics.C88_calendar",
    "Ics.C88_first",
    "Ics.C88_event",
    "Ics.C88_todo",
    "Ics.C88_alarm_rfc",
    "Ics.C88_fails"
   ],
   "note": "RFC 5545 is not always met (C88_fails): alarms without TRIGGER or DESCRIPTION, events whose uid is None, and calendars without components are written without complaint. The line names CLASSIFICATION, TRANSPARENT, PERCENT and SCALE are those of the program and not of RFC 5545 (C38)."
  },
  {
   "property": "C89",
   "status": "proved",
   "theorems": [
    "Ics.C89_iterator",
    "Ics.C89_earliest",
    "Ics.C89_query",
    "Ics.C89_prepare",
    "Ics.C89_timeline",
    "Ics.C89_included",
    "Ics.C89_overlapping",
    "Ics.C89_startAfter",
    "Ics.C89_at",
    "Ics.C89_on",
    "Ics.C89_late_error"
   ],
   "note": "C89_late_error: `start_after` with an aware time delivers the aware events before the first floating one and then raises TypeError."
  },
  {
   "property": "C90",
   "status": "proved",
   "theorems": [
    "Ics.C90_comparisons",
    "Ics.C90_same",
    "Ics.C90_heapify",
    "Ics.C90_heappop"
   ],
   "note": "Comparisons are those `heapq` makes; what happens inside one comparison (C22, C27) and the creation of the list of timespans are not counted."
  },
  {
   "property": "C91",
   "status": "proved",
   "theorems": [
    "Ics.C91_roundtrip",
    "Ics.C91_accepted",
    "Ics.C91_queries"
   ],
   "note": "For timelines without normalization, as Calendar.timeline is. Attributes besides time and summary count as numbers that agree before and after (Python looks at them only if time spans are equal)."
  },
  {
   "property": "C92",
   "status": "partial",
   "theorems": [
    "Ics.C92_right_partial",
    "Ics.C92_instant_partial",
    "Ics.C92_unique",
    "Ics.C92_single",
    "Ics.C92_none",
    "Ics.C92_late",
    "Ics.C92_fails",
    "Ics.C92_convert_partial",
    "Ics.C92_convert_fails"
   ],
   "note": "False in the hour after clocks are turned back: the local time given is that of daylight saving time, an hour late, and stands for another instant. Proved for all other instants, as long as changes happen in the order of their onsets and standard time does not change nearby."
  },
  {
   "property": "C93",
   "status": "proved",
   "theorems": [
    "Ics.C93_parse",
    "Ics.C93_accepted",
    "Ics.C93_short",
    "Ics.C93_write",
    "Ics.C93_fails"
   ],
   "note": "Counts calls of contentlines_to_container and generators of containers; the constant number of other frames is not counted."
  },
  {
   "property": "C94",
   "status": "proved",
   "theorems": [
    "Ics.C94_text",
    "Ics.C94_bool",
    "Ics.C94_int",
    "Ics.C94_read",
    "Ics.C94_written",
    "Ics.C94_status_fails",
    "Ics.C94_url_fails"
   ],
   "note": "Organizer, attendees, attachments, geo and alarms are in C95. Findings: STATUS:NEEDS-ACTION, COMPLETED and IN-PROCESS of todos raise ValueError, as does a URL with an unescaped comma or semicolon."
  },
  {
   "property": "C95",
   "status": "proved",
   "theorems": [
    "Ics.C95_read",
    "Ics.C95_written",
    "Ics.C95_attach_fails",
    "Ics.C95_address_fails"
   ],
   "note": "urlparse, float() and b64decode are used in the specification as they are modelled (C62, C18). Findings: a URL with a comma in ATTACH becomes several attachments; ATTENDEE and ORGANIZER with VALUE=CAL-ADDRESS raise ValueError; the attendees after the first one of a line get no parameters but __merge_next."
  },
  {
   "property": "C96",
   "status": "partial",
   "theorems": [
    "Ics.C96_iff",
    "Ics.C96_entry_iff",
    "Ics.C96_alarm_iff",
    "Ics.C96_refl",
    "Ics.C96_symm",
    "Ics.C96_trans_partial",
    "Ics.C96_trans_fails",
    "Ics.C96_fold_fails",
    "Ics.C96_hash",
    "Ics.C96_loaded",
    "Ics.C96_roundtrip",
    "Ics.C96_text",
    "Ics.C96_roundtrip_fails",
    "Ics.C96_clone",
    "Ics.C96_clone_entry"
   ],
   "note": "Transitivity is false of the library's own Timezone objects: the wall clocks that are skipped when the clock is put forward have an offset that does not depend on fold, so that two events an hour apart on the wall clock are == to the same event in UTC but not to each other (C96_trans_fails); it is proved for zones where this does not happen. Events whose times differ by fold only are == although an hour apart (C96_fold_fails). A calendar that was not read is == after being written and read back exactly if its lists of values have the parameters that reading gives them (C96_roundtrip, C96_roundtrip_fails). A clone is == exactly if it has no extra lines or parameters (C96_clone). For calendars that were read, with safe lines and values, == after a round trip is proved without exception (C96_text)."
  },
  {
   "property": "C97",
   "status": "proved",
   "theorems": [
    "Ics.C97_decode",
    "Ics.C97_error",
    "Ics.C97_encode",
    "Ics.C97_strict_fails"
   ],
   "note": "base64 and binascii are modelled from CPython 3.11 (lenient mode). C97_strict_fails: texts that are not well-formed base 64 are accepted, e.g. with other characters in between."
  },
  {
   "property": "C98",
   "status": "proved",
   "theorems": [
    "Ics.C98_url",
    "Ics.C98_iff",
    "Ics.C98_entry",
    "Ics.C98_list",
    "Ics.C98_time",
    "Ics.C98_alarms",
    "Ics.C98_alarm",
    "Ics.C98_extra",
    "Ics.C98_percent_fails"
   ],
   "note": "C98_percent_fails: Todo(percent=True) passes the validator and is written as PERCENT:True, which cannot be read. For whole components the converse is C41."
  },
  {
   "property": "C99",
   "status": "proved",
   "theorems": [
    "Ics.C99_iff",
    "Ics.C99_needed",
    "Ics.C99_custom"
   ],
   "note": "The theorem assumes that the zone object which a reader finds under the written name of a zone object is written under its own name (as Timezone objects are), that texts of numbers have no semicolon, and that no attendee has the parameter __merge_next."
  },
  {
   "property": "C100",
   "status": "proved",
   "theorems": [
    "Ics.C100_iff",
    "Ics.C100_same_name"
   ],
   "note": "The theorem assumes that a zone object which is written as VTIMEZONE is a Timezone object whose VTIMEZONE is read as it (C61 says when), that texts of numbers have no semicolon, and that no attendee has the parameter __merge_next."
  },
  {
   "property": "C101",
   "status": "proved",
   "theorems": [
    "Ics.C101_offset",
    "Ics.C101_name",
    "Ics.C101_compare",
    "Ics.C101_mixed"
   ],
   "note": "datetime.time is modelled from CPython 3.11. Noon UTC as TimeConverter reads it (the library's UTC is a Timezone) is equal to noon without a zone and to noon in any other Timezone, and it is not equal to noon in datetime.timezone.utc."
  },
  {
   "property": "C102",
   "status": "partial",
   "theorems": [
    "Ics.C102_edited_partial",
    "Ics.C102_list_fails",
    "Ics.C102_attendee_fails",
    "Ics.C102_add",
    "Ics.C102_status"
   ],
   "note": "That every change can be written is false of the code: C102_list_fails and C102_attendee_fails. extra_params has one entry per value that was read, and serialize raises ValueError if the numbers differ. C102_edited_partial has no further gap for the changes that are described as lasting."
  },
  {
   "property": "C103",
   "status": "partial",
   "theorems": [
    "Ics.C103_text_partial",
    "Ics.C103_others",
    "Ics.C103_lists",
    "Ics.C103_attendee_fails"
   ],
   "note": "That every change can be written is false of the code: C103_attendee_fails, for the reason of C102. C103_text_partial has no further gap for changes that are described as lasting."
  },
  {
   "property": "C104",
   "status": "proved",
   "theorems": [
    "Ics.C104_clone",
    "Ics.C104_edited",
    "Ics.C104_attendees"
   ],
   "note": ""
  },
  {
   "property": "C105",
   "status": "proved",
   "theorems": [
    "Ics.C105_text",
    "Ics.C105_moved",
    "Ics.C105_settings",
    "Ics.C105_again"
   ],
   "note": ""
  },
  {
   "property": "C106",
   "status": "partial",
   "theorems": [
    "Ics.C106_edited_partial",
    "Ics.C106_effect",
    "Ics.C106_undated_fails",
    "Ics.C106_unset_fails"
   ],
   "note": "false of the code for unset_all_day, which sets the precision to 'seconds', which nothing that is read has (C106_unset_fails), and for entries read without begin and end, whose precision is None: after setting a begin, every later end and every duration raises KeyError (C106_undated_fails)"
  },
  {
   "property": "C107",
   "status": "partial",
   "theorems": [
    "Ics.C107_text_partial",
    "Ics.C107_later_partial",
    "Ics.C107_attendee",
    "Ics.C107_stripped",
    "Ics.C107_others",
    "Ics.C107_copied",
    "Ics.C107_order",
    "Ics.C107_unset_fails"
   ],
   "note": "false of the code for unset_all_day: no text at all is read as a calendar in which it was the last operation on an event or todo (C107_unset_fails); and for add_attendee on an event that was read with attendees (C103_attendee_fails), unless strip_extras(extra_params=True) is called before (C107_attendee)"
  },
  {
   "property": "C108",
   "status": "partial",
   "theorems": [
    "Ics.C108_independent_partial",
    "Ics.C108_email_fails"
   ],
   "note": "false of the code for e-mail alarms, whose lists have no converter: attendees and attachments that are added to a clone are added to the original too (C108_email_fails). Elements of lists are shared by intent (shallow copy) and not modelled as objects"
  },
  {
   "property": "C109",
   "status": "proved",
   "theorems": [
    "Ics.C109_iff",
    "Ics.C109_needed",
    "Ics.C109_others",
    "Ics.C109_done"
   ],
   "note": "same side conditions on the text as C65 (file read and safe); up to quotation marks around parameter values; the items must be such as a content line can be written (WritableTrees)"
  },
  {
   "property": "C110",
   "status": "proved",
   "theorems": [
    "Ics.C110_first",
    "Ics.C110_exchange",
    "Ics.C110_outcome",
    "Ics.C110_same_place_fails"
   ],
   "note": "the model has no event or todo that is at two places of a calendar (for such an object the claim does not hold, as for operations on the same place: C110_same_place_fails)"
  }
 ]
}