{"id": "C01", "title": "Parameter values survive escaping", "statement": "For every parameter value v, unescape_param(escape_param(v)) is v with exactly its carriage returns removed (so it is v itself whenever v has no carriage return), and escape_param(v) contains no double quote, line feed or carriage return.", "quantifier": "every string", "why_tests_cant": "The value ranges over all strings, including arbitrary runs of carets, quotes and newlines whose escapes overlap; examples cannot exclude an ambiguous combination.", "anchors": ["src/ics/contentline/container.py:escape_param", "src/ics/contentline/container.py:unescape_param"]}
{"id": "C02", "title": "A content line survives being written and parsed", "statement": "For every content line whose name is upper case without ':' or ';', whose parameter names contain none of '=', ':', ';' and are distinct, whose parameter value lists are non-empty and do not end in an unquoted empty string, and whose parameter values have no carriage return, parsing its unfolded serialization returns an equal content line: same name, same value, same parameters in the same order with the same values. When a parameter's list is empty or ends in an unquoted empty value, parsing the serialization always fails.", "quantifier": "every name, every list of parameters, every list of values per parameter, every value text (any characters)", "why_tests_cant": "The interaction of quoting, commas, delimiters inside quotes and delimiters in the value needs all combinations of values; the failing combinations (last value empty) are only found by quantifying.", "anchors": ["src/ics/contentline/container.py:ContentLine.serialize", "src/ics/contentline/parser.py:ContentLineParser.parse", "src/ics/contentline/parser.py:ContentLineParser.parse_param"]}
{"id": "C03", "title": "The line parser only ever fails with ParseError", "statement": "Parsing any text as a content line either returns a content line or raises ParseError; it never raises IndexError or any other exception and it always terminates.", "quantifier": "every string", "why_tests_cant": "The parser does index arithmetic with three moving positions; a bad index shows only on specific malformed inputs that a test author did not think of.", "anchors": ["src/ics/contentline/parser.py:ContentLineParser"]}
{"id": "C04", "title": "Folding loses nothing", "statement": "For every content line text without line breaks that does not start with a space or tab, folding it at any width >= 1 and unfolding the physical lines gives back exactly the text.", "quantifier": "every text, every width, every way the word splitter may cut the text into chunks", "why_tests_cant": "The break positions depend on width, word boundaries and hyphens; only a proof covers all of them.", "anchors": ["src/ics/contentline/container.py:DEFAULT_LINE_WRAP", "src/ics/contentline/container.py:ContentLine.serialize", "src/ics/contentline/parser.py:unfold_lines"]}
{"id": "C05", "title": "Folded lines respect the limit", "statement": "For every text and every width >= 2, every physical line produced by folding is at most width characters long, and (RFC 5545) at most 75 octets when the default width is used.", "quantifier": "every text, every width, every chunking", "why_tests_cant": "Long words, hyphens and indentation interact; a limit has to hold for every text.", "anchors": ["src/ics/contentline/container.py:DEFAULT_LINE_WRAP", "src/ics/contentline/container.py:ContentLine.serialize"]}
{"id": "C06", "title": "Parsing does not depend on how the input was folded", "statement": "Inserting a line break followed by a single space or tab at any set of positions inside a content line (not before its first character) does not change what is parsed.", "quantifier": "every content line, every set of fold positions, space or tab at each", "why_tests_cant": "The number of foldings of one line is exponential and other producers fold at arbitrary places.", "anchors": ["src/ics/contentline/parser.py:unfold_lines", "src/ics/contentline/parser.py:string_to_containers"]}
{"id": "C07", "title": "Parsing does not depend on the line-ending style", "statement": "A document given as lines joined with CRLF, with LF or with CR, with or without additional blank lines, or as an iterable of lines with or without trailing line breaks, parses to the same result.", "quantifier": "every sequence of lines without line-break characters, every choice of line ending", "why_tests_cant": "Boundary cases such as CR immediately followed by LF or blank lines between folded lines need every sequence.", "anchors": ["src/ics/contentline/parser.py:string_to_lines", "src/ics/contentline/parser.py:unfold_lines", "src/ics/contentline/parser.py:lines_to_containers"]}
{"id": "C08", "title": "A container tree survives being written and parsed", "statement": "For every tree of containers and content lines, in which no content line is called BEGIN or END, names are upper case and there are no raw line breaks, parsing the serialized text gives back exactly one container equal to the original, whatever the folding width.", "quantifier": "every tree of any depth and breadth, every width >= 1, every chunking", "why_tests_cant": "Nesting is unbounded, and the guarantee combines folding, escaping, quoting and nesting.", "anchors": ["src/ics/contentline/container.py:Container.serialize", "src/ics/contentline/parser.py:string_to_containers", "src/ics/contentline/parser.py:contentlines_to_containers"]}
{"id": "C09", "title": "Nesting is matched and nothing is lost", "statement": "If parsing a sequence of content lines succeeds, then writing the parsed containers back as a flat sequence of lines gives the same sequence of lines (BEGIN/END lines up to letter case and their parameters): no line is dropped, duplicated, reordered or moved into another container; and it fails when a BEGIN has no END or an END does not match the innermost open BEGIN.", "quantifier": "every finite sequence of content lines", "why_tests_cant": "Arbitrary nesting depth and arbitrary malformed nesting cannot be enumerated.", "anchors": ["src/ics/contentline/parser.py:contentlines_to_containers", "src/ics/contentline/parser.py:contentlines_to_container"]}
{"id": "C10", "title": "Text values survive escaping", "statement": "For every string s, TextConverter.unescape_text(TextConverter.escape_text(s)) == s, and escape_text(s) contains no line break and no unescaped ';' or ','; hence two different texts never have the same escaped form.", "quantifier": "every string", "why_tests_cant": "Backslash runs before separators are the classic failure; a proof by induction covers all of them.", "anchors": ["src/ics/valuetype/text.py:TextConverter.escape_text", "src/ics/valuetype/text.py:TextConverter.unescape_text"]}
{"id": "C11", "title": "Lists of text values survive joining and splitting", "statement": "For every non-empty list of strings, splitting the comma-joined escaped values gives exactly the escaped values, so every category list is read back with the same number of elements and the same texts.", "quantifier": "every non-empty list of strings", "why_tests_cant": "Values made of commas and backslashes of any length and parity must not merge with or split from their neighbours.", "anchors": ["src/ics/valuetype/text.py:TextConverter.split_value_list", "src/ics/valuetype/text.py:TextConverter.join_value_list"]}
{"id": "C12", "title": "Unescaping accepts exactly the well-formed texts", "statement": "unescape_text returns a value if and only if the text is a concatenation of ordinary characters (not backslash, ';', ',', CR, LF) and of the two-character sequences backslash followed by one of \\ ; , n N r R; otherwise it raises ValueError, never another exception.", "quantifier": "every string", "why_tests_cant": "It is an if-and-only-if over all strings, including trailing backslashes and unknown escapes.", "anchors": ["src/ics/valuetype/text.py:TextConverter.unescape_text"]}
{"id": "C13", "title": "Durations survive being written and parsed", "statement": "For every timedelta that is a whole number of seconds, positive, zero or negative, DurationConverter.parse(DurationConverter.serialize(d)) == d; for other timedeltas the result is d rounded towards zero to whole seconds.", "quantifier": "every timedelta", "why_tests_cant": "All combinations of sign and zero/non-zero days, hours, minutes and seconds; the carry arithmetic must be right for all integers.", "anchors": ["src/ics/valuetype/datetime.py:DurationConverter"]}
{"id": "C14", "title": "Written durations follow RFC 5545", "statement": "For every timedelta the text written is a dur-value of RFC 5545 section 3.3.6 (dur-hour may only be followed by dur-minute, dur-minute by dur-second).", "quantifier": "every timedelta", "why_tests_cant": "Which components are omitted depends on the value; a grammar membership must hold for all.", "anchors": ["src/ics/valuetype/datetime.py:DurationConverter.serialize"]}
{"id": "C15", "title": "UTC offsets survive being written and parsed", "statement": "For every whole-second offset strictly between -100 h and +100 h, UTCOffsetConverter.parse(UTCOffsetConverter.serialize(o)) == o, and what is written has the form sign HHMM or sign HHMMSS.", "quantifier": "every whole-second timedelta in the range", "why_tests_cant": "Sign handling of divmod on negative numbers, zero padding and optional seconds over all values.", "anchors": ["src/ics/valuetype/datetime.py:UTCOffsetConverter"]}
{"id": "C16", "title": "Date-times survive being written and parsed", "statement": "For every valid naive or UTC date-time with whole seconds, DatetimeConverter.parse(DatetimeConverter.serialize(d)) is d (UTC stays UTC, naive stays naive); likewise every date for DateConverter; with a non-zero microsecond the fraction is cut off.", "quantifier": "every date-time and date from year 1 to 9999", "why_tests_cant": "3.1e11 values; leap years, padding and format selection by length must hold for each.", "anchors": ["src/ics/valuetype/datetime.py:DatetimeConverterMixin", "src/ics/valuetype/datetime.py:DatetimeConverter", "src/ics/valuetype/datetime.py:DateConverter"]}
{"id": "C17", "title": "A date-time with time zone keeps wall clock and zone name", "statement": "For every zone-aware non-UTC date-time, serializing writes the wall-clock time without 'Z' together with exactly one TZID parameter naming the zone, registers the zone under that name, and parsing it in a context that knows that zone returns the same wall clock in that zone; text that has both a 'Z' and a TZID, or more than one TZID, is rejected with ValueError.", "quantifier": "every date-time, every zone, every context", "why_tests_cant": "The combination of context contents, parameters and suffix is unbounded.", "anchors": ["src/ics/valuetype/datetime.py:DatetimeConverterMixin._serialize_dt", "src/ics/valuetype/datetime.py:DatetimeConverterMixin._parse_dt"]}
{"id": "C18", "title": "Booleans, integers and binary data survive being written and parsed", "statement": "For every bool b, every int n and every byte string x, parsing the serialized form gives b, n and x respectively.", "quantifier": "every bool, int, byte string", "why_tests_cant": "Unbounded integers and byte strings of every length modulo 3.", "anchors": ["src/ics/valuetype/generic.py:BooleanConverter", "src/ics/valuetype/generic.py:IntegerConverter", "src/ics/valuetype/generic.py:BinaryConverter"]}
{"id": "C19", "title": "Periods survive being written and parsed", "statement": "For every period (start and end, or start and duration) with whole seconds, PeriodConverter.parse(PeriodConverter.serialize(p)) gives p.", "quantifier": "every period", "why_tests_cant": "It must hold for every period; in fact it holds for none, which only a universally quantified statement exposes.", "anchors": ["src/ics/valuetype/special.py:PeriodConverter", "src/ics/valuetype/datetime.py:DatetimeConverterMixin._parse_dt"]}
{"id": "C20", "title": "Every time span that can be constructed is well-formed", "statement": "Constructing a time span succeeds exactly when: begin and end (if both given) are both naive or both zone-aware and begin is not after end; end and duration are not both given; a duration is not negative and needs a begin; an event's end needs a begin; for all-day spans begin and end are naive midnights and the extent is at least one day; the extent is a multiple of the precision up to half a second. Otherwise construction raises and no span comes into existence.", "quantifier": "every combination of begin, end, duration, precision and class", "why_tests_cant": "Five optional components with continuous values and time zones; an if-and-only-if needs all combinations.", "anchors": ["src/ics/timespan.py:Timespan.validate", "src/ics/timespan.py:EventTimespan.validate", "src/ics/timespan.py:TodoTimespan.validate"]}
{"id": "C21", "title": "Events and todos stay well-formed through any history of edits", "statement": "Starting from any successfully created event or todo and performing any sequence of edits (setting begin, end, due or duration, making it all-day or not, converting the end representation, replacing or converting the time zone), after every edit the time span satisfies the conditions of construction, and an edit that raises leaves the event exactly as it was.", "quantifier": "every start state, every finite sequence of edits with every argument", "why_tests_cant": "Histories are unbounded and the order of edits matters.", "anchors": ["src/ics/event.py:CalendarEntryAttrs", "src/ics/todo.py:Todo", "src/ics/timespan.py:Timespan.replace", "src/ics/types.py:RuntimeAttrValidation"]}
{"id": "C22", "title": "begin + duration = end", "statement": "Whenever a span has an effective begin and an effective duration, its effective end is begin plus duration (and when begin and end share the time zone, the effective duration is end minus begin), no matter whether the end was given as end, as duration or not at all.", "quantifier": "every valid event and todo span", "why_tests_cant": "Four representations times naive/aware times precision.", "anchors": ["src/ics/timespan.py:Timespan.get_effective_end", "src/ics/timespan.py:EventTimespan.get_effective_duration", "src/ics/timespan.py:TodoTimespan.get_effective_end"]}
{"id": "C23", "title": "Changing the end representation changes nothing observable", "statement": "For every valid event span with an explicit end or duration whose end, if given, has the time zone of its begin, convert_end('end') and convert_end('duration') keep begin, effective end, effective duration and all-day-ness, and the requested representation is in effect afterwards; converting there and back restores the span.", "quantifier": "every valid span, both targets", "why_tests_cant": "Precision and midnight validation can reject the converted span; shows only for particular fractions of a second.", "anchors": ["src/ics/timespan.py:Timespan.convert_end"]}
{"id": "C24", "title": "make_all_day covers the event with the fewest whole days", "statement": "For every valid event span with begin whose begin and end share a time zone, make_all_day succeeds, the result starts at the latest midnight not after begin and ends at the earliest midnight that is not before the end and after the new begin, has no time zone, and applying it again changes nothing.", "quantifier": "every valid span", "why_tests_cant": "Begin and end at, just before and just after midnight in combination with each representation.", "anchors": ["src/ics/timespan.py:Timespan.make_all_day", "src/ics/utils.py:floor_datetime_to_midnight", "src/ics/utils.py:ceil_datetime_to_midnight"]}
{"id": "C25", "title": "Time zone conversion keeps the instants, replacement keeps the wall clock", "statement": "For every valid span convert_timezone(z) succeeds and begin and effective end denote the same instants as before, now in zone z; replace_timezone(z) keeps the wall-clock of begin and end; both refuse all-day spans.", "quantifier": "every valid span, every zone", "why_tests_cant": "DST gaps and overlaps depend on zone data and on the representation of the end.", "anchors": ["src/ics/timespan.py:Timespan.convert_timezone", "src/ics/timespan.py:Timespan.replace_timezone"]}
{"id": "C26", "title": "Comparison operators agree with each other", "statement": "For any two spans or events, a > b holds iff b < a, a <= b iff not b < a, a >= b iff b <= a, and exactly one of a < b, b < a, 'neither' holds; the comparison never fails when naive and zone-aware times are mixed.", "quantifier": "every pair of spans/events", "why_tests_cant": "Pairs of arbitrary spans with zones, missing begin/end and different representations.", "anchors": ["src/ics/timespan.py:Timespan.cmp_tuple", "src/ics/timespan.py:TimespanTuple", "src/ics/event.py:Event"]}
{"id": "C27", "title": "Sorting spans is well defined", "statement": "The order on spans is transitive and its 'neither' relation is transitive, so sorting any list of spans has a well-defined result.", "quantifier": "every triple of spans, in any time zones", "why_tests_cant": "Three spans in two zones around a DST change are needed for a violation; no test enumerates triples.", "anchors": ["src/ics/timespan.py:Timespan.cmp_tuple", "src/ics/timespan.py:TimespanTuple.cmp_tuple", "doc/explanation/event-cmp.rst"]}
{"id": "C28", "title": "The order does not depend on the end representation", "statement": "Replacing a span's end by the equivalent duration (or vice versa) never changes how it compares with any other span.", "quantifier": "every span in both representations, every other span", "why_tests_cant": "Needs every span and every comparison partner.", "anchors": ["src/ics/timespan.py:Timespan.cmp_tuple", "src/ics/timespan.py:Timespan.timespan_tuple"]}
{"id": "C29", "title": "Spans without a begin sort first", "statement": "As documented, a span without begin sorts before every span with a begin, and of two spans with the same begin the one without end sorts first.", "quantifier": "every pair of spans", "why_tests_cant": "The placeholder used for 'unset' is a date inside the representable range; only quantifying over all dates reveals it.", "anchors": ["src/ics/timespan.py:TimespanTuple.cmp_tuple", "doc/explanation/event-cmp.rst"]}
{"id": "C30", "title": "intersects means having an instant in common", "statement": "For two event spans with begin and end, intersects is symmetric and holds iff there is an instant t with begin <= t < end for both (end instants excluded, as documented).", "quantifier": "every pair of spans", "why_tests_cant": "Boundary relations (Allen's 13 interval relations with zero-length variants) over continuous values.", "anchors": ["src/ics/timespan.py:Timespan.intersects"]}
{"id": "C31", "title": "includes / is_included_in mean containment", "statement": "a.includes(b) iff b.is_included_in(a), for every pair of spans and for instants; a.includes(t) iff begin <= t < end; a.includes(b) implies that every instant of b is an instant of a; and conversely whenever every instant of b is one of a, a includes b.", "quantifier": "every pair of spans, every instant", "why_tests_cant": "Boundary cases where ends coincide; all pairs.", "anchors": ["src/ics/timespan.py:Timespan.includes", "src/ics/timespan.py:Timespan.is_included_in"]}
{"id": "C32", "title": "Interval queries work on todos as on events", "statement": "starts_within, ends_within, intersects, includes and is_included_in give the same answers for a todo with begin and due as for an event with that begin and end.", "quantifier": "every todo span and every other span or instant", "why_tests_cant": "It must hold for each; the code fails for each, and no test exercises it.", "anchors": ["src/ics/timespan.py:TodoTimespan.timespan_tuple", "src/ics/timespan.py:Timespan.starts_within", "src/ics/todo.py"]}
{"id": "C33", "title": "The timeline yields every timed event once, in order", "statement": "Iterating the timeline of a calendar yields exactly the events that have a begin, each exactly as often as it is in the calendar, in non-decreasing order of begin, then end.", "quantifier": "every finite multiset of events in every initial order, every mix of representations", "why_tests_cant": "It is a heap sort with a comparison that is only a partial order on ties; the permutation/sortedness claim quantifies over all lists.", "anchors": ["src/ics/timeline.py:Timeline.iterator", "src/ics/timeline.py:Timeline.__iter__"]}
{"id": "C34", "title": "Timeline queries are filters of the timeline", "statement": "included, overlapping, at, start_after return exactly the events of the timeline satisfying the corresponding predicate, in timeline order; every event reported by included(a, b) is also reported by overlapping(a, b). A query with a span and a second argument is a ValueError; a query with two times is the query with the span between them.", "quantifier": "every calendar, every query interval", "why_tests_cant": "All calendars and query boundaries.", "anchors": ["src/ics/timeline.py:Timeline.included", "src/ics/timeline.py:Timeline.overlapping", "src/ics/timeline.py:Timeline.at", "src/ics/timeline.py:Timeline.start_after"]}
{"id": "C35", "title": "on(day) reports exactly the events of that day", "statement": "timeline.on(d) returns exactly the events having an instant on the calendar day of d (strict: those lying entirely in the day), for every time of day passed as d.", "quantifier": "every calendar, every instant d", "why_tests_cant": "Wrong only within the last second of the day or for events touching midnight, which requires quantification over instants.", "anchors": ["src/ics/timeline.py:Timeline.on"]}
{"id": "C36", "title": "A VTIMEZONE's offset is that of the latest transition", "statement": "For every time zone with at least two observances and every wall-clock time, utcoffset/dst/tzname are those of the observance whose latest onset at or before the time is the latest of all; before any onset the first standard observance applies; with one observance that one always applies.", "quantifier": "every list of observances, every onset set, every wall-clock time", "why_tests_cant": "Arbitrary many observances with arbitrary recurrence; ties and times before the first onset.", "anchors": ["src/ics/timezone/__init__.py:Timezone._find_observance", "src/ics/timezone/__init__.py:Timezone._find_observance_cachable", "src/ics/timezone/__init__.py:Timezone.utcoffset"]}
{"id": "C37", "title": "Offset queries do not depend on earlier queries", "statement": "utcoffset(dt), dst(dt) and tzname(dt) of a time zone return the same result whatever datetimes were asked before on the same zone object.", "quantifier": "every finite history of queries", "why_tests_cant": "History dependence through an LRU cache: a violating history has to be constructed, and absence needs all histories.", "anchors": ["src/ics/timezone/__init__.py:Timezone.__attrs_post_init__", "src/ics/timezone/__init__.py:Timezone._find_observance"]}
{"id": "C38", "title": "Unknown properties are kept", "statement": "Every property line and every sub-component that no attribute of the component handles is kept in extra, in input order and unchanged, and is written back in that order; no handled line ends up in extra, and no line is lost.", "quantifier": "every component text", "why_tests_cant": "Arbitrary interleavings of known and unknown lines.", "anchors": ["src/ics/converter/component.py:ComponentMeta._populate_attrs", "src/ics/converter/component.py:ComponentMeta._serialize_attrs"]}
{"id": "C39", "title": "Single-valued properties cannot be silently overwritten", "statement": "If a component text contains a single-valued property of the component twice (or DTSTART/DTEND/DUE/DURATION twice), loading raises ValueError, wherever the two lines are; if a required property (VERSION, PRODID of a calendar) is missing, loading raises ValueError.", "quantifier": "every component text", "why_tests_cant": "Positions and surrounding lines are arbitrary.", "anchors": ["src/ics/converter/value.py:AttributeValueConverter.populate", "src/ics/converter/value.py:AttributeValueConverter.post_populate", "src/ics/converter/types/timespan.py:TimespanConverter"]}
{"id": "C40", "title": "The order of property lines is irrelevant", "statement": "Reordering the lines of a component such that lines of the same name keep their relative order never changes the loaded attributes or whether loading succeeds; extra is reordered accordingly.", "quantifier": "every component text and every such permutation", "why_tests_cant": "Factorially many permutations.", "anchors": ["src/ics/converter/component.py:ComponentMeta._populate_attrs", "src/ics/converter/base.py:GenericConverter"]}
{"id": "C41", "title": "An event survives being written and parsed", "statement": "For every event whose values are representable in iCalendar (whole seconds, years from 1000, known zones), loading its serialization yields an equal event: same time span, same attributes, same lists in the same order, same extra lines.", "quantifier": "every event, every combination of set/unset attributes", "why_tests_cant": "Product of all attributes and representations.", "anchors": ["src/ics/converter/component.py:ComponentMeta.load_instance", "src/ics/converter/component.py:ComponentMeta.serialize_toplevel", "src/ics/converter/value.py:AttributeValueConverter", "src/ics/converter/types/timespan.py:TimespanConverter"]}
{"id": "C42", "title": "Parameters of properties survive", "statement": "Every parameter of a handled property line (beyond those that encode the value itself) is written back on the corresponding line when the loaded component is serialized again.", "quantifier": "every component text", "why_tests_cant": "Each property and parameter combination; one property out of ~20 loses them.", "anchors": ["src/ics/converter/base.py:AttributeConverter.set_or_append_extra_params", "src/ics/converter/base.py:AttributeConverter.get_extra_params", "src/ics/converter/types/timespan.py:TimespanConverter.serialize"]}
{"id": "C43", "title": "Every TZID written has exactly one definition, before its use", "statement": "In the serialization of a calendar, for every TZID parameter written by a date-time there is exactly one VTIMEZONE with that TZID, it precedes all events and todos, and it describes the zone that the date-time was in.", "quantifier": "every calendar with any number of zones", "why_tests_cant": "Any number of events, zones and name collisions.", "anchors": ["src/ics/converter/types/calendar.py:CalendarMeta", "src/ics/valuetype/datetime.py:DatetimeConverterMixin._serialize_dt"]}
{"id": "C44", "title": "clone() is an exact copy", "statement": "component.clone() equals the component, for every event, todo and calendar; container.clone(deep=True) shares no mutable object with the original.", "quantifier": "every component, every container tree", "why_tests_cant": "Any content of extra/extra_params and nested containers.", "anchors": ["src/ics/component.py:Component.clone", "src/ics/contentline/container.py:Container.clone"]}
{"id": "C45", "title": "A container only ever holds content lines and containers", "statement": "Through any history of append, insert, extend, item and slice assignment and deletion, a container's items are content lines or containers only, the successful operations have exactly the effect of the corresponding list operation, and operations that raise leave the container unchanged.", "quantifier": "every history of operations with every argument, including invalid ones", "why_tests_cant": "Histories are unbounded and failure atomicity depends on operation and argument.", "anchors": ["src/ics/contentline/container.py:Container"]}
{"id": "C46", "title": "Context managers restore the previous setting", "statement": "After any properly nested use of contentline_set_wrap and deterministic_event_data, with or without exceptions inside, the line width and the UID/timestamp factories are what they were before; while inside, the innermost setting is in effect.", "quantifier": "every nesting, every exception point", "why_tests_cant": "Every crash point and nesting depth.", "anchors": ["src/ics/contentline/container.py:contentline_set_wrap", "src/ics/event.py:deterministic_event_data"]}
{"id": "C47", "title": "Attribute validation holds after any assignment history", "statement": "After any sequence of attribute assignments on a component (each succeeding or raising), every validated attribute holds a value accepted by its validator (status is None or an upper-case known status, percent in 0..100, priority in 0..9), a raising assignment changes nothing, and this does not depend on which classes were used before.", "quantifier": "every history of assignments over every class hierarchy", "why_tests_cant": "Depends on the history of other instances through a class-level cache.", "anchors": ["src/ics/types.py:RuntimeAttrValidation", "src/ics/event.py:Event", "src/ics/todo.py"]}
{"id": "C48", "title": "Person properties behave like independent variables", "statement": "For attendees and organizers, reading a property after setting it yields the set value, setting one property does not affect another, deleting restores the default, and multi-valued properties keep all values in order; all survive parsing and serialization.", "quantifier": "every history of get/set/delete over every property", "why_tests_cant": "Unbounded histories; aliasing of names and case.", "anchors": ["src/ics/attendee.py:PersonProperty", "src/ics/converter/types/various.py:PersonConverter"]}
{"id": "C49", "title": "Multi-valued properties keep values and grouping", "statement": "For a multi-valued property read from any number of lines with any number of comma-separated values each, the component has all values in order, and serializing writes back the same lines with the same grouping.", "quantifier": "every list of lines with every list of values", "why_tests_cant": "Groupings are unbounded; merging is driven by a per-value marker.", "anchors": ["src/ics/converter/value.py:AttributeValueConverter.populate", "src/ics/converter/value.py:AttributeValueConverter.serialize"]}
{"id": "C50", "title": "Normalizing makes times comparable and is idempotent", "statement": "After normalization with any setting that replaces floating times, all non-all-day times are zone-aware; normalizing twice gives the same as once; and with conversion, no instant changes.", "quantifier": "every span, every normalization setting, every zone", "why_tests_cant": "Each flag combination with each kind of time.", "anchors": ["src/ics/timespan.py:Normalization.normalize", "src/ics/icalendar.py:Calendar.normalize"]}
{"id": "C51", "title": "Midnight rounding is tight", "statement": "floor_datetime_to_midnight gives the latest midnight not after the value, ceil_datetime_to_midnight the earliest midnight not before it; both fix midnights, both are idempotent and keep the time zone. Likewise floor_timedelta_to_days and ceil_timedelta_to_days give the longest number of whole days not longer and the shortest one not shorter than a duration, negative ones included.", "quantifier": "every date-time", "why_tests_cant": "All values to the microsecond.", "anchors": ["src/ics/utils.py:floor_datetime_to_midnight", "src/ics/utils.py:ceil_datetime_to_midnight", "src/ics/utils.py:floor_timedelta_to_days", "src/ics/utils.py:ceil_timedelta_to_days"]}
{"id": "C52", "title": "The alarm type is recovered from its ACTION", "statement": "For every alarm, writing it and reading it back gives an alarm of the same class with the same action; an alarm text without or with more than one ACTION is rejected.", "quantifier": "every alarm, including custom actions", "why_tests_cant": "Custom actions are arbitrary strings, including the names of built-in actions in any case.", "anchors": ["src/ics/alarm.py", "src/ics/converter/types/various.py:AlarmConverter"]}
{"id": "C53", "title": "now() reports the events taking place now", "statement": "timeline.now() yields exactly the events that take place at the current instant, in timeline order, whatever the local time zone is.", "quantifier": "every calendar, every current instant, every local zone", "why_tests_cant": "It passes a naive UTC time that is later read as local time; on machines running in UTC, as in CI, the tests pass.", "anchors": ["src/ics/timeline.py:Timeline.now", "src/ics/timeline.py:Timeline.at"]}
{"id": "C54", "title": "Queries about incomplete spans raise ValueError", "statement": "starts_within, ends_within, intersects, includes and is_included_in raise a ValueError whenever one of the bounds the question needs is missing, and never answer it with an invented bound.", "quantifier": "every pair of spans (of events or plain spans), in every time zone environment", "why_tests_cant": "Which bounds exist depends on the class of the span, its precision and on which of end and duration is given; only some combinations are tested.", "anchors": ["src/ics/timespan.py:Timespan.__require_tuple_components", "src/ics/timespan.py:Timespan.intersects"]}
{"id": "C55", "title": "today() yields the events of the local day", "statement": "timeline.today() yields exactly the events that overlap the local calendar day containing the current instant (with strict=True: that lie within it), in timeline order.", "quantifier": "every calendar, every current local time, every local zone", "why_tests_cant": "The answer depends on the clock and on the local zone; tests fix one of each.", "anchors": ["src/ics/timeline.py:Timeline.today", "src/ics/timeline.py:Timeline.on"]}
{"id": "C56", "title": "A calendar survives being written and read", "statement": "Writing a calendar whose events, todos and alarms are representable to a container and reading that container gives the same calendar: version, product id, method, events and todos in order, alarms, unknown lines and parameters; the time zones are taken from the VTIMEZONEs that were written.", "quantifier": "every calendar with any number of representable events and todos in any number of time zones", "why_tests_cant": "Writing goes through shared state (the table of zones collected while the members are written), and reading depends on the order in which VTIMEZONEs and members are processed; tests only try calendars with a few fixed zones.", "anchors": ["src/ics/converter/types/calendar.py:CalendarMeta", "src/ics/converter/types/calendar.py:CalendarTimezoneConverter", "src/ics/converter/component.py:ComponentMeta"]}
{"id": "C57", "title": "A calendar survives being turned into text and parsed", "statement": "For every calendar whose parts are representable and can be written as text, serialize() succeeds and Calendar(text) is equal to the original, up to quotation marks of parameter values that Python's equality ignores; with every line width.", "quantifier": "every representable, writable calendar and every line wrapping of width at least 1", "why_tests_cant": "The claim composes all layers (converters, containers, escaping, folding, unfolding, line parser, zone table); tests sample few calendars, mostly without folded or quoted content.", "anchors": ["src/ics/component.py:Component.serialize", "src/ics/icalendar.py:Calendar.__init__"]}
{"id": "C58", "title": "One or several calendars in one text", "statement": "Calendar(text) is only accepted if the text is exactly one VCALENDAR: an empty text and anything after the first calendar raise ValueError. Calendar.parse_multiple on the concatenated texts of any number of calendars gives all of them, equal and in order.", "quantifier": "every text; every list of representable, writable calendars", "why_tests_cant": "Tests use two fixed calendars; where one calendar ends and the next begins depends on nesting and folding of arbitrary content.", "anchors": ["src/ics/icalendar.py:Calendar.__init__", "src/ics/icalendar.py:Calendar.parse_multiple"]}
{"id": "C59", "title": "A time zone survives being written as VTIMEZONE and read back", "statement": "Timezone.from_container(tz.to_container()) succeeds and equals tz for every time zone: same TZID, URL and time of last change, the same observances in the same order with the same offsets, names, comments, recurrence rules and dates, and the same unknown items and parameters; and it answers every utcoffset/dst/tzname query as tz does.", "quantifier": "every time zone with any number of observances, rules and dates; every query", "why_tests_cant": "Tests read a few fixed VTIMEZONEs; recurrence rules, several dates, missing start times and zoned dates combine in unboundedly many ways.", "anchors": ["src/ics/timezone/__init__.py:Timezone", "src/ics/converter/types/timezone.py:TimezoneMeta", "src/ics/converter/types/various.py:RecurrenceConverter.serialize"]}
{"id": "C60", "title": "What reading a VTIMEZONE means", "statement": "Whenever a VTIMEZONE is read without an error, the result has the TZID of its only TZID line, one observance per STANDARD and DAYLIGHT container in order, each with the offsets of its only TZOFFSETFROM and TZOFFSETTO lines and the recurrence set of its recurrence lines, and every other item is kept; a VTIMEZONE without TZID, or an observance without offsets or recurrence lines, is refused.", "quantifier": "every list of lines and containers", "why_tests_cant": "The input is arbitrary text from other programs, with any order, repetition and nesting of lines.", "anchors": ["src/ics/converter/types/timezone.py:TimezoneMeta", "src/ics/converter/types/timezone.py:TimezoneObservanceMeta", "src/ics/converter/component.py:ComponentMeta.load_instance"]}
{"id": "C61", "title": "A calendar and its time zones survive being turned into text and parsed", "statement": "For every calendar whose date-times are in time zones given by Timezone objects, serialize() writes a VTIMEZONE per zone in use, and Calendar(text) reads these VTIMEZONEs as equal Timezone objects and gives the same calendar, with every event, alarm and date-time in the same zone again; likewise for a single VTIMEZONE and for parse_multiple.", "quantifier": "every calendar, every set of time zones with any number of observances and rules, every line length", "why_tests_cant": "Tests use a few fixed zones; here the zones, their names, rules, parameters and unknown lines, and the line folding of their text are arbitrary.", "anchors": ["src/ics/converter/types/calendar.py:CalendarMeta", "src/ics/converter/types/timezone.py:TimezoneMeta", "src/ics/icalendar.py:Calendar.serialize"]}
{"id": "C62", "title": "URLs survive being written and read", "statement": "A URL read by URIConverter (or as the address of a person) from any text, then written with geturl() and read again, is the same URL; it never contains a line break; and the parts of scheme://netloc/path?query#fragment are what they are called.", "quantifier": "every text", "why_tests_cant": "Texts with control characters, capital letters, empty or nested delimiters, relative paths and unusual schemes are unboundedly many, and urlparse has a special case for each.", "anchors": ["src/ics/valuetype/generic.py:URIConverter", "src/ics/valuetype/special.py:PersonConverter"]}
{"id": "C63", "title": "Time zones from tzinfo objects and from names", "statement": "Timezone.from_tzinfo returns a Timezone as it is; ics.UTC for UTC; for a fixed offset a Timezone that answers every query with that offset, no DST and the same name, and that survives being written and read; for a zone with a name the zone of that name in the database; None for local time only; and raises ValueError otherwise. Timezone.from_tzid finds exactly what is in the file for the name (or for the Windows name), and to_builtin applied twice is to_builtin applied once.", "quantifier": "every tzinfo object, every name, every content of the database, every date-time asked for", "why_tests_cant": "Offsets, names, classes of tzinfo objects and contents of the database are arbitrary, and the answers are about all date-times.", "anchors": ["src/ics/timezone/converters.py:Timezone_from_tzinfo", "src/ics/timezone/converters.py:Timezone_from_tzid", "src/ics/timezone/__init__.py:Timezone.to_builtin", "src/ics/timezone/__init__.py:is_utc"]}
{"id": "C64", "title": "What was parsed can be written and is read again as the same", "statement": "Every text that string_to_containers accepts (without END lines outside of all containers) gives containers that serialize() can write with any line length, and reading what was written gives the same containers and lines; the text written for those is exactly the same text again. Likewise for every single content line that ContentLine.parse accepts.", "quantifier": "every text (any folding, line ends, letter case, quotation, escapes, nesting), every content line, every line length", "why_tests_cant": "Accepted texts are unboundedly many; tests round-trip a few written by hand, in the normal form the library writes itself.", "anchors": ["src/ics/contentline/parser.py:ContentLineParser", "src/ics/contentline/__init__.py:string_to_containers", "src/ics/contentline/container.py:Container.serialize_iter", "src/ics/contentline/container.py:ContentLine.serialize_iter"]}
{"id": "C65", "title": "An accepted calendar text is written, and read as the same calendar", "statement": "For every text that Calendar(text) accepts, serialize() succeeds and Calendar() of what was written is the same calendar, provided the text has none of the things that are known to get lost: an event or todo without DTSTAMP (it then has the present time with microseconds), parameters other than VALUE and TZID on the end of an event, several attendees on one ATTENDEE line, an ACTION other than DISPLAY, AUDIO, EMAIL and NONE, a parameter called __merge_next, URLs like http:foo, times before the year 1000, GEO coordinates with more than six decimals, or zones whose VTIMEZONE is not read as the same zone.", "quantifier": "every accepted text without the listed things, every line length, every environment (zones with offsets of whole seconds)", "why_tests_cant": "Accepted texts are unboundedly many, with any nesting, order of lines and combination of properties; the tests round-trip a few files.", "anchors": ["src/ics/icalendar.py:Calendar", "src/ics/converter/component.py:ComponentMeta", "src/ics/converter/value.py:AttributeValueConverter", "src/ics/converter/types/timespan.py:TimespanConverter", "src/ics/contentline/parser.py:ContentLineParser"]}
{"id": "C66", "title": "Writing is stable: what was written and read is written as the same text", "statement": "For a calendar, event or todo that can be represented (C41, C56, C57) the container that is written, read and written again is the same container, and the text is the same text, character for character, with every line length; likewise for what is written for any text that Calendar(text) accepts without the things listed in C65: it is a fixed point of reading and writing. Components that are the same in the sense of the round trip theorems are written as the same items.", "quantifier": "every representable component, every accepted text without the things listed in C65, every line length for the first and the second writing, every environment", "why_tests_cant": "The texts are unboundedly many, and the order of lines, grouping of lists onto lines, quotation marks, zones and extra lines must all agree at once; tests compare a few files.", "anchors": ["src/ics/icalendar.py:Calendar.serialize", "src/ics/icalendar.py:Calendar", "src/ics/converter/component.py:ComponentMeta", "src/ics/converter/value.py:AttributeValueConverter", "src/ics/converter/types/timespan.py:TimespanConverter", "src/ics/contentline/container.py:ContentLine.serialize_iter"]}
{"id": "C67", "title": "strip_extras removes what was asked for and nothing else", "statement": "strip_extras fails with a ValueError exactly if none of the three things is to be removed (a flag that is not given follows all_extras). Otherwise the class and all attributes stay, all unknown items are removed or none, and the parameters are all removed, or only the marks that put values of a list on one line, or none. Doing it again changes nothing. Without the marks every value of a list is written on a line of its own. A component that could be written and read back can still be, and its attributes are still the same.", "quantifier": "every component, all combinations of arguments, every representable event, todo and calendar", "why_tests_cant": "There are 54 combinations of arguments and unboundedly many components; the repository has no test that writes and reads a stripped component.", "anchors": ["src/ics/component.py:Component.strip_extras", "src/ics/converter/value.py:AttributeValueConverter"]}
{"id": "C68", "title": "The converters of a class follow from its definition", "statement": "initialize_converters succeeds. For every class of components the converters found from the type annotations and metadata of the attributes are, in order, those that the model of components reads and writes with: same attribute, line name, value types, list or not, required or not. For any class definition, each attribute has exactly one converter unless it is to be ignored; converters are sorted by priority, highest first and otherwise in the order of definition; a line is given to exactly the converters for its name, in that order. An attribute of some class gets a converter if and only if one is registered for that class, otherwise there is a ValueError; so events cannot be registered before alarms, nor calendars before events.", "quantifier": "every class definition, every attribute, every state of the registries, every line name", "why_tests_cant": "Tests see only the classes that exist, registered in the one order that works; the rules for priorities, names, lists and unions hold for any definition of a class.", "anchors": ["src/ics/__init__.py:initialize_converters", "src/ics/converter/base.py:AttributeConverter.get_converter_for", "src/ics/converter/base.py:unwrap_type", "src/ics/converter/base.py:extract_attr_type", "src/ics/converter/base.py:sort_converters", "src/ics/converter/component.py:ComponentMeta.find_converters", "src/ics/converter/value.py:AttributeValueConverter"]}
{"id": "C69", "title": "A calendar line by line is the calendar", "statement": "Iterating over a calendar gives the lines of its text: put together they are the text that serialize gives, every line but the last has exactly one line end, which is at its end, the first line is BEGIN:VCALENDAR and the last END:VCALENDAR. Reading the lines gives the same as reading the text, for every text, so Calendar(list(calendar)) is the same calendar as Calendar(calendar.serialize()). str(calendar) says how many events and todos there are.", "quantifier": "every calendar, every text, every line length", "why_tests_cant": "The texts are unboundedly many; tests do not contain the rare characters that Python takes for line ends.", "anchors": ["src/ics/icalendar.py:Calendar.__iter__", "src/ics/icalendar.py:Calendar.__str__", "src/ics/contentline/parser.py:ParserClass.lines_to_containers"]}
{"id": "C70", "title": "Times of day survive being written and parsed", "statement": "TimeConverter writes every time of day as six digits and reads it back as the same time in whole seconds: without a zone if it had none, in the same zone (by TZID) if the library has a Timezone for it, with a Z if it is in UTC. A text with Z and a TZID is refused; whatever is accepted is a time of day in whole seconds.", "quantifier": "every time of day, every zone, every text, every dictionary of parameters and context", "why_tests_cant": "The times, zones and texts are unboundedly many, and the repository has no test for TimeConverter.", "anchors": ["src/ics/valuetype/datetime.py:TimeConverterClass", "src/ics/timezone/__init__.py:is_utc"]}
{"id": "C71", "title": "Recurrence rules: equality, hash and text agree", "statement": "Two rrules are equal exactly if they have equal values under every name, in whatever order they were given; two rrulesets exactly if they have the same rules and dates in the same order. Equality is an equivalence relation and equal rules have equal hashes. The text of an rruleset names every rule and date once, excluded rules as EXRULE.", "quantifier": "every rule, every set of rules, every equality and hash of the values that satisfy Python's contract", "why_tests_cant": "Rules have unboundedly many values and orders of arguments; the contract of __eq__ and __hash__ is about all pairs and triples.", "anchors": ["src/ics/rrule.py:rrule_to_dict", "src/ics/rrule.py:rrule_eq", "src/ics/rrule.py:rrule_hash", "src/ics/rrule.py:rruleset_eq", "src/ics/rrule.py:rruleset_hash", "src/ics/rrule.py:rruleset_str"]}
{"id": "C72", "title": "Setting begin, end and duration, also of all-day entries", "statement": "Setting begin, end or duration of an event or todo succeeds exactly if the time span would be well-formed afterwards. As their documentation says, for all-day entries the time of the begin is truncated to midnight, the end is rounded up to midnight and the duration to full days.", "quantifier": "every event and todo, every time and duration", "why_tests_cant": "The times, durations and previous states are unboundedly many.", "anchors": ["src/ics/event.py:CalendarEntryAttrs.begin", "src/ics/event.py:CalendarEntryAttrs.end", "src/ics/event.py:CalendarEntryAttrs.duration"]}
{"id": "C73", "title": "Descriptions show what is stored, replace replaces what it is given", "statement": "The description of a time span names begin, end and duration so that two spans of the same class with the same description store the same of them with the same text, are both all-day or both not, and otherwise both floating or both not; it says of end or duration that it is fixed exactly if it is stored. Timespan.replace changes exactly what it is given and validates the result; without arguments it gives the same span; the setters of events and todos are calls of it.", "quantifier": "every time span, every text of the values", "why_tests_cant": "The spans and values are unboundedly many; that no two different spans look alike is a statement about all pairs.", "anchors": ["src/ics/timespan.py:Timespan.get_str_segments", "src/ics/timespan.py:Timespan.replace", "src/ics/event.py:CalendarEntryAttrs.__str__"]}
{"id": "C74", "title": "The line parser accepts exactly the content lines", "statement": "A text is accepted as a content line if and only if it can be derived from the grammar: a name without : and ;, parameters ;name=value,value,... whose values are any text without quotes in quotes or a text without : ; , that does not begin with a quote, the last one not empty, carets only before ^ n ', then : and any value. The grammar is unambiguous and the result is what the derivation says; of a parameter given repeatedly the last values count. Every other text is refused with a ParseError.", "quantifier": "every text", "why_tests_cant": "The texts are unboundedly many and the grammar is recursive; acceptance of exactly a language is a statement about all texts in it and all texts not in it.", "anchors": ["src/ics/contentline/parser.py:ContentLineParser.parse", "src/ics/contentline/parser.py:ContentLineParser.parse_param", "src/ics/contentline/parser.py:ContentLineParser.parse_quoted_param_val", "src/ics/contentline/parser.py:ContentLineParser.parse_raw_param_val"]}
{"id": "C75", "title": "The check of parsed lines and the pattern of content lines", "statement": "With always_check, the parser accepts exactly the lines that Patterns.LINE matches and reads them as the groups of the pattern.", "quantifier": "every text", "why_tests_cant": "The texts are unboundedly many; the tests run with always_check, so an unsound check is not noticed by them.", "anchors": ["src/ics/contentline/parser.py:ContentLineParser.check_parsed_line", "src/ics/contentline/container.py:Patterns"]}
{"id": "C76", "title": "Exactly which texts are read as durations, offsets, date-times and dates", "statement": "A text is read as a duration exactly if it is an optional sign, P, and numbers of at most 4300 digits with distinct units D W H M S in any order, each possibly after a T, possibly a T at the end, with the sum in the range of timedelta; as a UTC offset exactly if it is an optional sign and four or six digits; as a date-time exactly if without / - Z z it is YYYYMM, possibly DD (or a space and a digit), possibly T or t and HH, HHMM or HHMMSS, and the day exists; it is UTC exactly if it ends in Z or z, and then must have no TZID; a TZID must name a zone that can be found. Dates are the same without a time. The value is the one that the digits say. Everything else is refused, with the errors as stated.", "quantifier": "every text, all parameters, every context and every zone database", "why_tests_cant": "The texts are unboundedly many; that nothing else is accepted cannot be seen from examples.", "anchors": ["src/ics/valuetype/datetime.py:DurationConverter.parse", "src/ics/valuetype/datetime.py:UTCOffsetConverter.parse", "src/ics/valuetype/datetime.py:DatetimeConverterMixin._parse_dt", "src/ics/valuetype/datetime.py:DateConverter.parse"]}
{"id": "C77", "title": "Interval queries of events, with events, spans and instants", "statement": "For an event x and an event or span o with concrete times: x.starts_within(o) iff the begin of x is an instant of o, x.ends_within(o) iff its end is, x.includes(o) iff o begins no earlier and ends earlier, x.is_included_in(o) the other way round, x.intersects(o) iff the closed intervals share an instant and it is not the case that the ends agree and one is empty; x.includes(t) iff t is an instant of x. An event may be given in place of its span everywhere; includes and is_included_in are each other's converse.", "quantifier": "every environment of lawful zones, all events, spans and instants", "why_tests_cant": "Times, zones and spans are unbounded; the equivalence of the five queries to interval relations has to hold for all of them.", "anchors": ["src/ics/event.py:CalendarEntryAttrs.starts_within", "src/ics/event.py:CalendarEntryAttrs.ends_within", "src/ics/event.py:CalendarEntryAttrs.intersects", "src/ics/event.py:CalendarEntryAttrs.includes", "src/ics/event.py:CalendarEntryAttrs.is_included_in", "src/ics/types.py:get_timespan_if_calendar_entry"]}
{"id": "C78", "title": "Line numbers of content lines and containers", "statement": "Parsing a text gives every content line, at any depth, as line_nr the number, counted from 0 and counting empty lines, of the physical line on which it begins; the content line is that physical line followed by its continuations without their first character. The numbers increase in the order of the text. A container has the line_nr of the first content line in it.", "quantifier": "every text", "why_tests_cant": "Texts are unboundedly long, with empty lines and folding anywhere; that each number is that of the right line needs an induction over the text.", "anchors": ["src/ics/contentline/parser.py:ParserClass.unfold_lines", "src/ics/contentline/parser.py:ParserClass.lines_to_contentlines", "src/ics/contentline/container.py:Container.line_nr"]}
{"id": "C79", "title": "What parse errors say", "statement": "A ParseError of parsing a text is of one of four kinds: it is about a content line, and then names the number of the physical line on which that begins, its text and columns, and at these columns is what the message says; or about a continuation at the begin of the text; or about a BEGIN without END; or about an END that does not fit. Line number and columns can be read off the text of the error.", "quantifier": "every text, all errors", "why_tests_cant": "Errors can be at any of unboundedly many places of unboundedly long lines; the columns have to be right for all of them.", "anchors": ["src/ics/contentline/container.py:ParseError.__str__", "src/ics/contentline/parser.py:ContentLineParser.error", "src/ics/contentline/parser.py:ContentLineParser.parse_param", "src/ics/contentline/parser.py:ContentLineParser.parse_quoted_param_val"]}
{"id": "C80", "title": "Which exceptions reading a calendar raises, and why", "statement": "Reading any text as a calendar returns a calendar or raises a ParseError, a ValueError, or an exception for one of these reasons: AssertionError because a line has the name of a component or a component that of a property; IndexError because a date or time is empty or a text is no duration; OverflowError because a duration is longer than 999999999 days, a CREATED, LAST-MODIFIED or DTSTAMP is outside of the years 1 to 9999 in UTC, or an all-day entry with an end begins on 9999-12-31; TypeError because of the begin and the (last) end of an entry exactly one has a zone; AttributeError because an alarm contains a component named ACTION; or the exception of a VTIMEZONE. A calendar in which one of these reasons (other than those for a ValueError or OverflowError) is present is not read.", "quantifier": "every text", "why_tests_cant": "Texts are unboundedly long and nested, faults may be in any component and hide each other; that no other exception can come out needs an invariant of the loader.", "anchors": ["src/ics/icalendar.py:Calendar.__init__", "src/ics/icalendar.py:Calendar.parse_multiple", "src/ics/converter/component.py:ComponentMeta._populate_attrs", "src/ics/converter/value.py:AttributeValueConverter.populate", "src/ics/converter/types/timespan.py:TimespanConverter.populate", "src/ics/timespan.py:Timespan.validate", "src/ics/valuetype/datetime.py:DatetimeConverterMixin.parse", "src/ics/valuetype/datetime.py:DurationConverterClass.parse", "src/ics/converter/types/various.py:AlarmMeta.load_instance"]}
{"id": "C81", "title": "Which exceptions reading a VTIMEZONE raises, and what an accepted one has", "statement": "Reading the items of any VTIMEZONE returns a Timezone or raises a ValueError or an exception for one of these reasons: AssertionError because a line is named STANDARD or DAYLIGHT or a component has the name of a property; IndexError because LAST-MODIFIED is empty; OverflowError because LAST-MODIFIED is outside of the years 1 to 9999 in UTC; KeyError because an observance has none of DTSTART, RRULE, RDATE, EXRULE, EXDATE; TypeError because some dates of an observance have a zone and some have not; or what dateutil's rrulestr raises. An accepted one has exactly one TZID line, at most one TZURL and LAST-MODIFIED line, and every STANDARD and DAYLIGHT component in it has at least one line that says when it begins, and exactly one TZOFFSETFROM and one TZOFFSETTO line, which are UTC offsets. Together with C80: the exceptions of reading any text as a calendar.", "quantifier": "every list of items, every behaviour of rrulestr, every line wrapping", "why_tests_cant": "The items and the behaviour of rrulestr are unbounded; that nothing else is raised needs a proof over all branches.", "anchors": ["src/ics/converter/types/timezone.py:TimezoneMeta.load_instance", "src/ics/converter/types/timezone.py:TimezoneObservanceMemberMeta.populate", "src/ics/converter/types/various.py:RecurrenceConverter.post_populate", "src/ics/converter/component.py:ImmutableComponentMeta.load_instance", "src/ics/converter/value.py:AttributeValueConverter.populate", "src/ics/timezone/__init__.py:ensure_utc"]}
{"id": "C82", "title": "Which calendars can be written, and what writing raises", "statement": "Writing a calendar whose attributes (and those of its events, todos and alarms) are of the annotated types returns a text or raises for one of these reasons: ValueError for a number of more than 4300 digits or a time in a zone without a name; AttributeError for a list of parameters at an attribute with one value; AttributeError or ValueError for a single dictionary of parameters at a list; ValueError if there are not as many parameters as values, or values marked to be on one line have different parameters or no next value; TypeError for a list of parameters at ACTION; ValueError for parameters at the list of components; or what writing a used time zone raises. Where the used zones can be written, a calendar can be written exactly if its attributes are of the annotated types and none of these reasons applies. New objects are of the annotated types (but a custom alarm has no action), assigning a value keeps this except for the attributes without validator; those accept every value, and a value of a wrong type makes every calendar with it unwritable.", "quantifier": "every calendar, event, todo and alarm object, every value, every line wrapping, every library of zones", "why_tests_cant": "The objects and values are unbounded, and that nothing else is raised needs a proof over all branches of the writer.", "anchors": ["src/ics/converter/value.py:AttributeValueConverter.serialize", "src/ics/converter/value.py:AttributeValueConverter.__serialize_multi", "src/ics/converter/value.py:AttributeValueConverter.__find_value_converter", "src/ics/converter/component.py:MemberComponentConverter.serialize", "src/ics/converter/component.py:ComponentMeta.serialize_toplevel", "src/ics/converter/types/timespan.py:TimespanConverter.serialize", "src/ics/converter/types/calendar.py:CalendarMeta.serialize_toplevel", "src/ics/types.py:RuntimeAttrValidation.__setattr__"]}
{"id": "C83", "title": "Which calendars that were read can be written", "statement": "A calendar that was read from a text has attributes of the annotated types, and (where its time zones have names and can be written) it can be written exactly if neither an event nor an e-mail alarm of it was given by a line ATTENDEE whose value lists several addresses: the first address gets all the parameters of the line and the other ones none, and values of one line with different parameters are refused by the writer. (The exception: the line has no parameter but VALUE and the internal `__merge_next=TRUE`.) Whatever else is wrong with the text, writing what was read from it raises nothing but ValueError or what a used zone raises.", "quantifier": "every text, every tree of content lines, every line wrapping, every library of zones", "why_tests_cant": "Texts and trees are unbounded; that nothing else can go wrong is a statement about all readable inputs and all branches of reader and writer.", "anchors": ["src/ics/converter/value.py:AttributeValueConverter.populate", "src/ics/converter/value.py:AttributeValueConverter.__serialize_multi", "src/ics/converter/types/various.py:AlarmMeta.load_instance", "src/ics/valuetype/special.py:PersonConverter.parse", "src/ics/icalendar.py:Calendar.__init__", "src/ics/icalendar.py:Calendar.serialize"]}
{"id": "C84", "title": "Which time zones can be written, and what writing them raises", "statement": "Writing a Timezone as VTIMEZONE succeeds or raises for one of these reasons: ValueError if rules of one observance start at different times, if a start, a date or the time of the last change is in a zone without a name, or for parameters at the observances; AttributeError for a date (RDATE, EXDATE) in a zone with a name other than UTC, or for a list of parameters at an attribute with one value; TypeError if some dates have a zone and some have not; IndexError, AssertionError or ParseError if the text of a rule is not exactly one content line after DTSTART lines. Where equal dates are the same, a Timezone can be written exactly if none of these applies. Of a Timezone that was read from a text only the rules can be the reason; and with C83 whatever is raised when a calendar that was read from a text is written is ValueError or has such a reason in a zone that is used.", "quantifier": "every Timezone object, every text, every line wrapping, every behaviour of the library that reads rules", "why_tests_cant": "Zones, rules and dates are unbounded, and that nothing else is raised is a statement about all of them.", "anchors": ["src/ics/converter/types/various.py:RecurrenceConverter.serialize", "src/ics/rrule.py:rrule_to_ContentLine", "src/ics/converter/types/timezone.py:TimezoneObservanceMemberMeta.serialize", "src/ics/converter/component.py:ComponentMeta.serialize_toplevel", "src/ics/converter/value.py:AttributeValueConverter.serialize", "src/ics/valuetype/datetime.py:DatetimeConverterMixin._serialize_dt"]}
{"id": "C85", "title": "The text of a single content line, and of recurrence lines", "statement": "ContentLine.serialize without a line break at the end, or without wrapping, is what serialize_iter gives. With a line break at the end it wraps the line break as well: the physical lines are those of the text, each followed by a line break, and exactly if the last of them has no room for two more characters a line consisting of a space follows. In all cases, for every width and every way to cut text into words, unfolding the text gives exactly the content line. The text of several lines that is handed to the parser of recurrence rules unfolds to exactly these lines whenever lines may have at least two characters; with a width of one they run into each other.", "quantifier": "every content line without line breaks, every list of them, every width, every word splitter", "why_tests_cant": "It depends on the length of the line modulo the width, on where words end, and on whether the line break is cut in two.", "anchors": ["src/ics/contentline/container.py:ContentLine.serialize", "src/ics/contentline/container.py:ContentLine.serialize_iter", "src/ics/converter/types/various.py:RecurrenceConverter.post_populate"]}
{"id": "C86", "title": "Exactly which content lines and containers survive being written and parsed", "statement": "Parsing the serialization of a content line gives an equal line if and only if its name is upper case and has no ':' or ';', no parameter name has a '=', ':' or ';' or is there twice, every parameter has a value of which the last is quoted or not empty, and no parameter value has a carriage return. A line written on its own, wrapped to any width or not at all, is read as exactly itself if and only if in addition its name, parameter names and value have no line break and its name does not start with a space or tab. A container is read as exactly itself if and only if this is so for all lines in it, none is called BEGIN or END, and the names of all containers in it are upper case, not empty and without line breaks.", "quantifier": "every content line, every tree of containers and lines, every width and word splitter", "why_tests_cant": "The 'only if' is about everything that the conditions exclude: that no combination of delimiters, quotes, line breaks and names elsewhere in the tree makes up for a line that is not writable.", "anchors": ["src/ics/contentline/container.py:ContentLine.serialize_iter", "src/ics/contentline/container.py:Container.serialize_iter", "src/ics/contentline/parser.py:ParserClass.string_to_containers"]}
{"id": "C87", "title": "The times of the events and todos of a calendar that was read, and its timeline", "statement": "If a calendar is read, it has one event for each VEVENT and one todo for each VTODO of the text, in the same order. The begin of each is exactly what its DTSTART line says, the end what its last DTEND or DUE line says (which must be DTEND for events and DUE for todos), and the duration what its DURATION line says: a date stands for its midnight without a zone, a trailing Z for UTC, a TZID for the first VTIMEZONE of that name in the calendar, otherwise for a zone known by that name, and anything else for a time without a zone. No such line is there twice, all have the same precision, and the time is valid. Iterating over the timeline of the calendar gives exactly the events that have a DTSTART line, each as often as in the text; nothing is raised if the ends exist and can be compared; and if all times are in UTC, they come in the order of their DTSTART values.", "quantifier": "every calendar text that is read, every list of VTIMEZONEs, VEVENTs and VTODOs, every order of the lines in them", "why_tests_cant": "The result depends on the order and kinds of all lines of each event, the zones defined anywhere in the calendar and the heap order over all events; tests fix a handful of texts.", "anchors": ["src/ics/converter/types/timespan.py:TimespanConverter", "src/ics/converter/types/calendar.py:CalendarMeta", "src/ics/valuetype/datetime.py:DatetimeConverterMixin.parse", "src/ics/timeline.py:Timeline.iterator"]}
{"id": "C88", "title": "What a written component contains: order and numbers of its lines, and the demands of RFC 5545", "statement": "A written component has the places of its class in their order, and then the items of `extra`: for each attribute with one value exactly one line of its name if it is not None and none otherwise; for each list at least one line if it is not empty, at most one per value, and exactly one per value if no parameters are kept for it; for the time DTSTART if there is a begin, DTEND (DUE for todos) if there is an end and no duration, DURATION if there is a duration; one ACTION for alarms with the action of the class; one component for each member, in order. In a calendar VERSION and PRODID come first, then the other lines, then the VTIMEZONEs, the events, and the todos. So an event or todo is as RFC 5545 demands (one UID and DTSTAMP; at most one each of the others; not both an end and a duration; for todos no duration without a begin) exactly if it has a UID and a DTSTAMP; and an alarm exactly if it has a trigger, has both or neither of duration and repeat, and what its action needs.", "quantifier": "every calendar, event, todo and alarm that can be written, with every combination of attributes, lists and extra items", "why_tests_cant": "There are exponentially many combinations of attributes that are given or absent; tests look at single components with few attributes.", "anchors": ["src/ics/converter/component.py:ComponentMeta.serialize_toplevel", "src/ics/converter/base.py:sort_converters", "src/ics/converter/value.py:AttributeValueConverter.serialize", "src/ics/converter/types/timespan.py:TimespanConverter.serialize", "src/ics/converter/types/calendar.py:CalendarMeta"]}
{"id": "C89", "title": "The generators of the timeline, call by call", "statement": "A generator of `iterator()`, `__iter__`, `included`, `overlapping`, `start_after`, `at`, `now` or `on` delivers its values one by one, then the exception if there is one, and then only StopIteration. All of it depends on the events the calendar has at the first `next` only: changing them before it is seen, changing them afterwards is not. What `iterator` delivers belongs to different events of the calendar that have a time, also if an exception follows. After `j` calls one has `j` events that begin no later than all the others (for times as in C33). A query delivers what it picks from what `iterator` delivers, up to the first exception; it ends without an exception exactly if the whole loop does, with the same events. `on` raises what is wrong with the day when it is called, the others at the first `next`.", "quantifier": "every calendar, every query, every interleaving of `next` calls with changes of the list of events", "why_tests_cant": "Executions interleave calls with changes of the calendar in unboundedly many ways, and generators are usually tested by turning them into lists.", "anchors": ["src/ics/timeline.py:Timeline.iterator", "src/ics/timeline.py:Timeline.__iter__", "src/ics/timeline.py:Timeline.included", "src/ics/timeline.py:Timeline.overlapping", "src/ics/timeline.py:Timeline.start_after", "src/ics/timeline.py:Timeline.at", "src/ics/timeline.py:Timeline.on"]}
{"id": "C90", "title": "Iterating over the timeline takes O(n + k log n) comparisons", "statement": "If a calendar has `n` events when `next` is first called on a generator of `Timeline.iterator()`, then `k` calls of `next` make at most `2n + 2k log2(n)` comparisons of (timespan, event) pairs, as the comment in the code claims. It holds for every order the events are in, for every outcome of the comparisons, also if one raises, and whatever happens to the calendar in between.", "quantifier": "every calendar, every comparison function, every interleaving of `next` calls with changes of the list of events", "why_tests_cant": "A bound on the number of steps holds for lists of all lengths in all orders; a benchmark measures some.", "anchors": ["src/ics/timeline.py:Timeline.iterator"]}
{"id": "C91", "title": "The timeline survives being written and parsed", "statement": "If a calendar that can be represented and written (C57) is turned into text and the text is parsed, the timeline of the result gives the same answers as that of the calendar: iterating, included, overlapping, start_after, at, on, today and now give the same events in the same order or raise the same exception, for every query. The same holds for calendars read from a text (C65). In particular no answer depends on which of the zone objects for UTC the events have, though these change when a calendar is written and read.", "quantifier": "every representable, writable calendar, every accepted text as in C65, every query, every line wrapping", "why_tests_cant": "It composes writing, folding, parsing, zones, the heap and the comparisons; Python compares times with the same tzinfo object differently from times with different ones, and reading replaces the objects for UTC.", "anchors": ["src/ics/icalendar.py:Calendar.serialize", "src/ics/icalendar.py:Calendar.__init__", "src/ics/timeline.py:Timeline"]}
{"id": "C92", "title": "Converting a time into a VTIMEZONE", "statement": "Converting an instant into a Timezone (astimezone, which uses the fromutc that Timezone inherits from datetime.tzinfo) gives the local time of the observance that the zone is in at that instant, where onsets are read with the offset in use before them, and the offset the zone gives for that local time leads back to the instant.", "quantifier": "every list of observances, every set of onsets, every instant, every history of queries", "why_tests_cant": "The inherited algorithm assumes things about utcoffset and dst that no test of a single date shows; it goes wrong for one hour in a year.", "anchors": ["src/ics/timezone/__init__.py:Timezone", "src/ics/timezone/__init__.py:Timezone.dst", "src/ics/timespan.py:Timespan.convert_timezone"]}
{"id": "C93", "title": "How deeply the parser and the writer recurse", "statement": "The parser and the writer of containers call themselves once for every level of nesting. With room for a given number of nested calls, a text is parsed as without limit unless a container is begun inside of that many open ones; then RecursionError ends the parse, after the items before it have been yielded. A text that is accepted without limit is accepted with one exactly if none of its containers is nested more deeply, and likewise a tree can be written exactly if it is not nested more deeply. No text with at most as many BEGIN lines as there is room for meets the limit. For every limit there is a correct text that is rejected with RecursionError, so the parser does not fail with ParseError only.", "quantifier": "every text, every tree, every limit", "why_tests_cant": "Tests use shallow texts; the exact depth at which the parser stops and that nothing else depends on the limit are statements about all texts.", "anchors": ["src/ics/contentline/parser.py:ParserClass.contentlines_to_container", "src/ics/contentline/container.py:Container.serialize_iter"]}
{"id": "C94", "title": "Values of events and todos are what the lines say", "statement": "For every calendar that is read, the events and todos are those of the components VEVENT and VTODO, in the same order, and besides the time (C87) the summary, description, location, UID, status, URL, the time stamps CREATED, LAST-MODIFIED and DTSTAMP, the classification, transparency and categories of events, and the percentage, priority and completion time of todos are exactly what the one line of that name says, or the default if there is none. Texts are unescaped, time stamps are the moment in UTC that the line gives, taking TZID and Z into account. Conversely, the text written for a calendar is one VCALENDAR whose lines say the values of its events and todos in the same order. Three of the four statuses that RFC 5545 has for todos, and URLs with an unescaped comma or semicolon, are never accepted.", "quantifier": "every list of items of a calendar, every calendar that can be represented, every width of lines, every environment", "why_tests_cant": "The meaning of the lines is defined independently of the converters, for arbitrary lines in any order with any parameters; tests compare some texts with some attributes.", "anchors": ["src/ics/converter/value.py:AttributeValueConverter.populate", "src/ics/valuetype/text.py:TextConverter.unescape_text", "src/ics/valuetype/generic.py:IntegerConverter.parse", "src/ics/valuetype/datetime.py:DatetimeConverterMixin._parse_dt", "src/ics/event.py:CalendarEntryAttrs", "src/ics/todo.py:TodoAttrs"]}
{"id": "C95", "title": "People, places, attachments and alarms are what the lines say", "statement": "For every calendar that is read, version, product, scale and method are what its lines say, the first two being required. The attachments and alarms of each event and todo and the organizer, place and attendees of each event are exactly what its lines and components VALARM say, in the same order: the kind of an alarm is that of its one line ACTION, its trigger is a moment or a duration depending on VALUE, and its other values are those of its lines. The first attendee of a line gets the parameters of the line. Conversely, the lines of a calendar that was written say its values, attachments and places exactly, and its people and alarms except for quotation marks and the zone object used for UTC. An attachment is read for each piece between commas of a line ATTACH, so that a URL with a comma becomes several attachments, and attendees and organizers with VALUE=CAL-ADDRESS are never accepted; both disagree with RFC 5545.", "quantifier": "every list of items of a calendar, every environment", "why_tests_cant": "The meaning of the lines is defined independently of the converters, for arbitrary lines in any order with any parameters and any number of alarms; tests compare some texts with some attributes.", "anchors": ["src/ics/converter/value.py:AttributeValueConverter.populate", "src/ics/converter/types/various.py:AlarmMeta", "src/ics/valuetype/special.py:PersonConverter.parse", "src/ics/valuetype/special.py:GeoConverterClass.parse", "src/ics/alarm.py:get_type_from_action", "src/ics/icalendar.py:CalendarAttrs"]}
{"id": "C96", "title": "Equality of components", "statement": "Two calendars, events, todos or alarms are == if and only if they have the same class, equal attributes and members in the same order, the same extra lines and the same parameters, whatever the order of dictionaries and the quotation marks of parameters. The relation is reflexive, symmetric and transitive, and == time spans have the same hash. A calendar that was read from a text is == to what it is read back as after it was written. A clone is == to its original.", "quantifier": "all calendars, events, todos and alarms, all zones, all texts, all line wrappings, all hash functions of the built-in types", "why_tests_cant": "Whether == is an equivalence depends on every zone and every instant, and whether a calendar survives being written depends on every combination of attributes and parameters; tests compare a few pairs.", "anchors": ["src/ics/component.py:Component", "src/ics/timespan.py:Timespan", "src/ics/contentline/container.py:ContentLine", "src/ics/contentline/container.py:Container", "src/ics/icalendar.py:CalendarAttrs", "src/ics/component.py:Component.clone", "src/ics/timezone/__init__.py:Timezone.utcoffset"]}
{"id": "C97", "title": "Base 64: exactly which texts are read as which bytes", "statement": "A text is read as binary data exactly if all its characters are ASCII and the letters of base 64 in it are groups of four, or the first group that is shorter is filled up by signs =, after which everything is ignored; all other characters are skipped. The bytes are the bits of the letters. Every other text is a ValueError. Bytes are written as their bits in letters, filled up by zeros and then by signs = to a multiple of four letters, as RFC 4648 demands.", "quantifier": "every text and every list of bytes", "why_tests_cant": "There are infinitely many texts with other characters and signs = in between; the specification gives the bytes as a number in base 256 obtained from the number in base 64, independently of the loop.", "anchors": ["src/ics/valuetype/generic.py:BinaryConverterClass.parse", "src/ics/valuetype/generic.py:BinaryConverterClass.serialize"]}
{"id": "C98", "title": "Exactly which values survive being written and read", "statement": "A value of the type of a converter survives being written and read exactly if: a text, bytes or a boolean, always; a URL, if some text is read as it and it is not one of those whose relative path becomes absolute; a date-time, if it is a whole second, is not the second of two equal wall clocks, has a year that is written with four digits, and has no zone, UTC, or a zone whose written name gives the reader the same zone; a duration, if it is whole seconds; an integer, if it has fewer than 4301 digits and is not a bool; coordinates, if their printed texts are read as the same numbers; an organizer or attendee, if the e-mail is such a URL. If a whole event, todo or alarm survives, then all its single-valued attributes and lists without parameters are of this kind (in lists URLs have no comma), its time span has either days as precision and only midnights without a zone, or seconds and only date-times of this kind, and a duration of whole seconds, all its alarms survive, the UID and the time stamp are not None, persons have no VALUE parameter, the extra lines are none that the reader understands, and the name is the one of the class.", "quantifier": "every value, every zone table, every event, todo and alarm, every state of the writer", "why_tests_cant": "An exact characterisation covers all values that do not survive, which are lost silently (microseconds, fold, zones with other names) or only fail when the file is read again.", "anchors": ["src/ics/valuetype/datetime.py:DatetimeConverterMixin.serialize", "src/ics/valuetype/datetime.py:DatetimeConverterMixin.parse", "src/ics/valuetype/generic.py:IntegerConverterClass", "src/ics/valuetype/special.py:GeoConverterClass", "src/ics/converter/value.py:AttributeValueConverter.serialize", "src/ics/converter/value.py:AttributeValueConverter.populate"]}
{"id": "C99", "title": "Exactly which events and todos survive being written and read", "statement": "An event or todo without extra parameters, as the constructors make it (values in Python's ranges, accepted by the validators, with a valid time span), is written and read back as the same event or todo exactly if each of its parts survives: every single value and every value in a list is one of those of C98, the UID and the time stamp are not None, URLs in lists have no comma, persons have no VALUE parameter, the time span has the class of the component, either days as precision with midnights without a zone or seconds with date-times of C98, or neither begin nor end and no precision, and a duration of whole seconds without an end; the same for every alarm, and no alarm is a CustomAlarm; the extra lines and components are none that the reader understands; and the container name is that of the class.", "quantifier": "every library and zone table, every event and todo", "why_tests_cant": "The condition and its necessity range over all objects; tests only find single objects that survive or do not.", "anchors": ["src/ics/component.py:Component.to_container", "src/ics/component.py:Component.from_container", "src/ics/converter/component.py:ComponentMeta", "src/ics/converter/value.py:AttributeValueConverter", "src/ics/converter/types/timespan.py:TimespanConverter", "src/ics/valuetype/datetime.py:DatetimeConverterMixin"]}
{"id": "C100", "title": "Exactly which calendars survive being written and read", "statement": "A calendar without extra parameters, as the constructors make it, is written and read back as the same calendar exactly if version and product id are not None, all its events and todos survive as in C99, the extra lines and components are none that the reader understands, the container has the name VCALENDAR, and one assignment of zones to names works for everything in it; in particular no two different zones in it have the same name.", "quantifier": "every library whose VTIMEZONEs are read back as the zones they were written for, every calendar", "why_tests_cant": "Both directions range over all calendars; two zones with one name lose a zone silently, which a test sees only for the calendar it tries.", "anchors": ["src/ics/icalendar.py:Calendar", "src/ics/converter/types/calendar.py:CalendarMeta", "src/ics/converter/types/calendar.py:CalendarTimezoneConverter", "src/ics/valuetype/datetime.py:DatetimeConverterMixin", "src/ics/timezone/converters.py"]}
{"id": "C101", "title": "What a time of day in a Timezone answers", "statement": "A time of day (datetime.time) in a Timezone of the library has no UTC offset, whatever the zone; it has a name and a daylight saving exactly if the zone has one observance, otherwise asking raises AttributeError (two or more observances) or IndexError (none). Times of day without a zone or in Timezones are compared by their clocks only, whatever the zones are; with a time of day in a datetime.timezone they are never equal, and ordering them raises TypeError.", "quantifier": "every list of observances, every time of day, every pair of zones", "why_tests_cant": "The answers depend on the number of observances and on which class of zone both sides have; a test tries a few zones, usually UTC.", "anchors": ["src/ics/timezone/__init__.py:Timezone.utcoffset", "src/ics/timezone/__init__.py:Timezone.dst", "src/ics/timezone/__init__.py:Timezone.tzname", "src/ics/timezone/__init__.py:Timezone._find_observance"]}
{"id": "C102", "title": "Events and todos that are changed after they were read", "statement": "An event or todo that was read from safe items (C65) and then changed any number of times, by assigning to attributes or with add_attendee, can be written, and what is written is read as the same event or todo, if at the end each changed attribute is lasting: a value that survives on its own; nothing, or a list of values that survive on their own, if the component has no parameters for the attribute; alarms or a time span that survive. But if it was read with at least one attachment, attendee or category and their number was changed, it can never be written again; in particular not after add_attendee. add_attendee takes attendees only, raising TypeError for anything else, and puts the new one last; assigning a status is refused with ValueError exactly if it is none of the three words in any case.", "quantifier": "every list of items, every list of changes, every library", "why_tests_cant": "The parameters of what was read stay behind when the value is changed; a test sees this only if it reads, changes and writes the very attribute.", "anchors": ["src/ics/types.py:RuntimeAttrValidation.__setattr__", "src/ics/event.py:EventAttrs.add_attendee", "src/ics/alarm.py:EmailAlarm.add_attendee", "src/ics/utils.py:check_is_instance", "src/ics/converter/value.py:AttributeValueConverter.serialize", "src/ics/converter/value.py:AttributeValueConverter.populate"]}
{"id": "C103", "title": "Files that are read, changed and written again", "statement": "A text that Calendar accepts and whose lines and values are safe (C65) is read, and the calendar is changed any number of times: attributes of the calendar are assigned, events and todos are changed at some place, appended or deleted, in such a way that new values last (C102) and can be written as text. Then every step succeeds, the changed calendar is serialized with every line wrapping, and reading the new text gives the changed calendar, up to quotation marks around parameter values. Changing one event or todo leaves all others as they were. But if an event was read with an attendee and another one is added, serialize of the whole calendar fails.", "quantifier": "every text, every list of changes, every line wrapping, every library", "why_tests_cant": "What survives is decided by the combination of what was read, what was changed and what stayed; tests try a few combinations.", "anchors": ["src/ics/icalendar.py:CalendarAttrs", "src/ics/types.py:RuntimeAttrValidation.__setattr__", "src/ics/event.py:EventAttrs.add_attendee", "src/ics/converter/component.py:MemberComponentConverter.serialize", "src/ics/icalendar.py:Calendar.serialize"]}
{"id": "C104", "title": "A clone survives, and can be changed freely", "statement": "An event or todo that survives being written and read can be cloned; the clone has the same attributes, neither unknown items nor parameters, and survives as well. If the original was read from safe items (C65), the clone can be changed in any way that lasts, its lists included, and still be written and read back as the same; in particular any number of attendees can be added to the clone of an event, which is not so for the event itself (C102).", "quantifier": "every list of items, every list of changes, every list of attendees, every library", "why_tests_cant": "That a copy behaves differently from its original shows only in the combination of reading, copying, changing and writing.", "anchors": ["src/ics/component.py:Component.clone", "src/ics/event.py:EventAttrs.add_attendee", "src/ics/converter/value.py:AttributeValueConverter.serialize"]}
{"id": "C105", "title": "Normalizing a whole calendar", "statement": "Calendar.normalize leaves all-day events and todos alone; for every other it uses the setting for floating times if none of its times has a zone and the setting for times with a zone otherwise: to convert keeps every instant and gives it in the zone, to replace keeps every clock time, to ignore changes nothing. Nothing else of the calendar changes, and normalizing again changes nothing. A calendar that was read from a safe file (C65) and normalized to a lawful zone that a reader knows, such as UTC, can be written and is read back as the normalized calendar, if no resulting time is in the second half of an overlap or in a year before 1000 that is written with fewer than four digits.", "quantifier": "every text, every calendar, every setting, every lawful zone, every library, every line wrapping", "why_tests_cant": "Moving times between zones meets overlaps, all-day entries and floating times in every combination; tests try one zone and one event.", "anchors": ["src/ics/icalendar.py:Calendar.normalize", "src/ics/timespan.py:Normalization.normalize", "src/ics/event.py:CalendarEntryAttrs.convert_timezone", "src/ics/event.py:CalendarEntryAttrs.replace_timezone"]}
{"id": "C106", "title": "Changing the times of an event or todo that was read", "statement": "An event or todo that was read from safe items (C65) and has a begin or an end can have its times changed in any number of steps that succeed (setting begin, end/due and duration to whole seconds, convert_end, make_all_day, replace_timezone, convert_timezone to a lawful known zone), and is then written and read back as the same, if at the end it has a begin or an end, no time is in the second half of an overlap or in a year that is not written with four digits, and no parameters are left of a begin, end or duration that is no longer there. Each operation does to the times what it says (the new begin with the old end and duration, and so on; moving to a zone keeps the instants) and leaves everything else of the event or todo as it was.", "quantifier": "every list of items, every list of operations, every library with offsets of whole seconds below a day", "why_tests_cant": "Each setter is tested alone on fresh objects; that any sequence of them on something that was read leaves it in a state that a file can represent needs an invariant.", "anchors": ["src/ics/event.py:CalendarEntryAttrs", "src/ics/timespan.py:Timespan.make_all_day", "src/ics/timespan.py:Timespan.convert_end", "src/ics/converter/types/timespan.py:TimespanConverter"]}
{"id": "C107", "title": "Any mixture of operations between reading and writing", "statement": "A calendar that was read from a safe text (C65) can be worked on with any number of operations in any order: attributes are assigned, events and todos are changed, appended and deleted (C103), clones of them are appended (C104), their times are changed (C106), unknown properties are added and removed (C109), extras are stripped (C67), the whole calendar is normalized to a lawful zone that is known (C105). If each operation lasts (its new values can be written and settled), the calendar can be written with every line wrapping, and what is written is read as the calendar at the end, up to quotation marks. Changing the times of one event or todo changes nothing else in the calendar.", "quantifier": "every text, every list of operations, every line wrapping, every library with offsets of whole seconds below a day", "why_tests_cant": "Operations are tested alone on fresh objects; that no order of them leads to a state that a file cannot represent needs an invariant that each of them keeps.", "anchors": ["src/ics/icalendar.py:Calendar.normalize", "src/ics/event.py:CalendarEntryAttrs", "src/ics/types.py:RuntimeAttrValidation.__setattr__", "src/ics/icalendar.py:Calendar.serialize"]}
{"id": "C108", "title": "A component and its clone have no list in common", "statement": "After component.clone(), whatever is done to the original and to the clone, in any order (changing a list in place, assigning a value or a new list to an attribute), what one sees of each of them is what its own operations make of what the original was when it was cloned.", "quantifier": "every component whose lists are distinct objects, every sequence of operations on either", "why_tests_cant": "Sharing only shows when the right attribute of one object is changed and the other object is looked at afterwards; independence is a statement about all such sequences.", "anchors": ["src/ics/component.py:Component.clone", "src/ics/event.py:CalendarEntryAttrs", "src/ics/event.py:EventAttrs.add_attendee", "src/ics/alarm.py:EmailAlarm", "src/ics/icalendar.py:CalendarAttrs"]}
{"id": "C109", "title": "Unknown properties that are added survive exactly if they are unknown", "statement": "If a calendar is read and the properties and components in the `extra` of the calendar, or of one of its events or todos, are replaced by any others that can be written as text, then the calendar can be written and what was written is read as the same calendar exactly if the reader understands none of the new ones. If it understands one of them, there is no text at all that is read as that calendar. Nothing but this `extra` is changed.", "quantifier": "every text that is read, every place in the calendar, every list of content lines and containers, every line wrapping", "why_tests_cant": "The names that are understood differ between the classes and depend on whether the item is a line or a component; a test adds some names to some component, and the failing ones are silently moved to attributes.", "anchors": ["src/ics/component.py:Component.extra", "src/ics/component.py:Component.populate", "src/ics/contentline/container.py:Container.__setitem__", "src/ics/contentline/container.py:Container.append"]}
{"id": "C110", "title": "What is done to one event does not depend on what is done to others", "statement": "In any sequence of operations on the events and todos of a calendar (assigning attributes, add_attendee, changing times, changing unknown properties, strip_extras), all that is done to one of them can be done first and all that is done to the others afterwards: this succeeds as well and gives the same calendar. Whether an operation succeeds and which exception it raises does not depend on earlier operations on other events and todos either.", "quantifier": "every calendar, every event or todo in it, every sequence of operations on its events and todos", "why_tests_cant": "The claim is about all interleavings of all operations on all places; a test tries a few orders of a few operations.", "anchors": ["src/ics/icalendar.py:CalendarAttrs", "src/ics/event.py:CalendarEntryAttrs", "src/ics/component.py:Component.strip_extras", "src/ics/types.py:RuntimeAttrValidation.__setattr__"]}
