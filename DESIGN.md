# Formal model of ics-py in Lean 4

Source: `/repo/src/ics` (read as text, never executed).  Model and proofs:
`/verif/lean/Verif/`.  Properties: `/verif/properties.jsonl`.  Status per property:
`/verif/MANIFEST.json`.  Mutation log: `/verif/seeded/LOG.jsonl`.

## Layout

| directory | contents |
|---|---|
| `Verif/Py/*` | the part of Python the library calls, modelled from the CPython 3.11 sources: exceptions as values, string search and split, dictionaries, `textwrap`, `int()`, `datetime` arithmetic and the civil calendar, `heapq`, `urllib.parse`, list indexing and slicing |
| `Verif/Model/*` | the library, function by function; each definition cites file and lines and says where it is simplified |
| `Verif/Spec/*` | small specifications that do not mention the model's helpers |
| `Verif/Proofs/*` | helper lemmas |
| `Verif/Props/*` | the property theorems `C01_...`, `C02_...`, each with a concrete `example` meeting its hypotheses |

Suffixes: `_partial` – a weakened form of the English property, the rest is either false of
the code or not expressible; `_fails` – a proved counterexample (the code does not have the property).

## Modelling conventions

* Python `str` is `List Char` (Lean `Char`: no lone surrogates).
* An exception is a value: every function that can raise returns `Except PyErr α`; `PyErr` is the
  exception class, messages are not modelled.  Generators are the list of what they yield and, possibly,
  the exception after it (`Gen`).
* `dict` is an insertion-ordered association list.
* `datetime` is a wall-clock count of microseconds since 0001-01-01, the `fold` bit and an optional
  time zone *object identity*; what the zone objects do (`utcoffset`, `fromutc`, name) is given by an
  environment (`World`, `Lib`) that every theorem quantifies over.  Python's rule "same tzinfo object:
  compare wall clocks, otherwise compare instants" is modelled, as is `OverflowError` at the ends of the
  calendar.
* `timedelta` is an integer number of microseconds.  Floating-point `total_seconds()` is modelled as
  the exact rational; this differs only above 285 years with a fractional second.
* Mutable objects: where a property is about histories or sharing (events, containers, validation caches,
  persons, clones) the model is a transition system on states, with object identities where they matter.
* Components (`Model/Component`) are one generic structure: a class, an insertion-ordered attribute map,
  `extra` and `extra_params`.  The converter tables that `ComponentMeta` builds from the attrs fields are
  written out per class (`Cls.convs`).
* Text wrapping is proved for every way of splitting a line into chunks (so the regular expression of
  `textwrap` is not part of the trusted base), folding width and newline flag included.
* Recurrence rules are any set of onsets with a lawful `before()`; for the component layer a rule is its start
  and its text, and `dateutil.rrule.rrulestr` is a function parameter (`RRuleStr`).  VTIMEZONE components
  inside a calendar are read and written by two abstract functions (`Lib.tzLoad`, `Lib.tzDump`), about which
  C56/C57 state their assumptions.  Reading and writing one VTIMEZONE is modelled in `Model/Vtimezone`, the
  answers of a zone object in `Model/Timezone`; C61 replaces the abstract functions by this model.

## Trusted base

* Lean's kernel (4.33.0) and the axioms listed per theorem at the end of this file: at most `propext`,
  `Classical.choice`, `Quot.sound`.  No own axioms, no `sorry`, no `native_decide`, no `bv_decide`.
* The faithfulness of the hand translation from Python to Lean (cited per definition).
* CPython's behaviour as modelled in `Verif/Py`.  `str.upper`, `str.isdigit`, `\d` and `\w` are modelled for
  ASCII only.
* Parameters of the environment every theorem quantifies over: zones, `strftime`'s treatment of small years,
  float parsing and printing, `urlparse`'s Unicode and IP-address checks, `uuid4`/`utcnow`, VTIMEZONE reading
  and writing.

## Not modelled

`dateutil` recurrence rules (only "latest onset at or before t" is a parameter), `ics_vtimezones` data
files, network access, `repr` and `humanize` output (`str` of spans, entries and parse errors is modelled), `attr` code generation other than the
validators/converters it runs, warnings, performance (except C90) and memory; the recursion limit is modelled for the parser and writer of containers only (C93).
`RecurrenceConverter` is modelled where the library uses it, for the observances of time zones (RRULE, RDATE,
EXDATE lines are `extra` for events and todos, as in the code).

## Per property: model, proof, disagreements

The last column lists what was found to be different from the property (each with a theorem `_fails`
unless marked *note*).

| id | what is modelled | how it is proved | disagreements between code and property |
|---|---|---|---|
| C01 | `escape_param`, `unescape_param` | induction on the string | – |
| C02 | `ContentLine.serialize`, the whole index-based `ContentLineParser` | simulation of the index parser by a suffix parser, induction on parameters and values | *note:* a parameter without value or with a final empty value makes the line unreadable (`C02_unreadable`) |
| C03 | same, with out-of-range indexing as `IndexError`; document parsing | invariants on the indices | *note:* a `BEGIN:` line without a name raises `ValueError` in document parsing |
| C04, C05 | `TextWrapper._wrap_chunks/_handle_long_word` for every chunking of the text | loop invariant | the 75-octet limit of RFC 5545 is false: characters are counted |
| C06, C07 | `string_to_lines`, `unfold_lines` | induction on lines | – |
| C08, C09 | `contentlines_to_container(s)`, `Container.serialize` | induction on trees / on the line list | *note:* a stray END outside containers is kept as a line |
| C10–C12 | `TextConverter` | induction; C12 against an inductive grammar | – |
| C13, C14 | `DurationConverter` | decimal printing/reading lemmas | C14: `PT1H5S` is not a dur-value; exact characterisation proved |
| C15 | `UTCOffsetConverter` | arithmetic | – |
| C16, C17 | `DatetimeConverterMixin`, `strftime`/`strptime` for the formats used, civil calendar | calendar arithmetic | years below 1000 where `strftime` does not pad; date-times in `dateutil`'s local zone lose it |
| C18 | `BooleanConverter`, `IntegerConverter`, `BinaryConverter` (base64) | induction on digits / bytes | *note:* integers above 4300 digits are refused by Python |
| C19 | `PeriodConverter` | case analysis | no written period is ever readable: the converter inherits only the date formats |
| C20 | `Timespan` construction and validation | case analysis, integer arithmetic | *note:* the half-second tolerance is asymmetric; the specification spells it out |
| C21 | event/todo mutators as a transition system | invariant over histories | – |
| C22–C25 | `Timespan` and subclasses | case analysis, integer arithmetic | C22: different zones or a fold; C23: fold, fractional end, precision `"seconds"` is no valid precision after `unset_all_day`; C24: `OverflowError` on the last days of year 9999; C25: DST changes make conversion raise or move an end given as duration |
| C26, C27, C29 | `cmp_tuple`, comparison operators, normalization to local time | order theory | C27: a cycle of three spans around the end of DST; C29: times before 1900 sort before a missing begin, equal begin and end |
| C28 | same | same | an end in the second pass of a repeated hour |
| C30–C32, C54 | interval predicates | arithmetic | C30: touching spans "intersect"; C31: equal ends, repeated hour; C32: every query on a todo raises `AttributeError` |
| C33–C35, C53, C55 | `Timeline`, `heapq.heapify/heappop` | heap invariants w.r.t. the preorder that the partial order refines | C33: equal events in different zones, all-day events in a normalizing timeline raise; C35: last second of a day, touching events; C53: `now()` is wrong unless local time is UTC |
| C36, C37 | `Timezone._find_observance*`, LRU cache | maximum over onsets, cache invariant over histories | C37: `fold` is not part of the cache key |
| C38 | `ComponentMeta.load_instance/populate_instance/serialize`, all converters, generic over the converter table | induction over lines | *note:* names derive from attribute names, so CLASS, TRANSP, PERCENT-COMPLETE, CALSCALE go to `extra`; a component named like a line property gives `AssertionError` |
| C39 | same | induction over lines | *note:* another error may come first |
| C40 | same | permutations of the line list | DTEND together with DUE: the last one wins |
| C41 | same, with alarms | composition of per-converter lemmas | events without time come back with precision `None`; parameters of DTEND are lost; fresh lists gain merge marks in `extra_params` |
| C42 | same | induction | parameters of DTEND are lost (stored as END, looked up as DTEND); a parameter `__merge_next` is lost |
| C43 | `CalendarMeta`, context threading through serialization | induction over components | zones with equal names: only one is written; TZIDs in extra lines have no VTIMEZONE |
| C44 | `Component.clone`, `Container.clone` with object identities | induction | `clone` drops `extra` and `extra_params`; deep clones share everything inside nested containers |
| C45 | `Container` as mutable sequence over CPython's index and slice arithmetic | transition system | `extend` and item assignment change the list before they validate it; an iterable that raises midway leaves elements; *note:* `c.extend(c)` never ends |
| C46 | context managers as a small structured language with exceptions | induction over programs | seen, not modelled: `ParseError` is a frozen class of attrs; with CPython 3.11, whose `contextlib` sets `__traceback__` on the way out, and attrs 22.1, which forbids that, a `ParseError` inside of these `with` statements leaves them as `FrozenInstanceError` (the setting is restored all the same) |
| C47 | `RuntimeAttrValidation.__setattr__` with the class-level cache, for any class hierarchy and for the library's | transition system | an assignment on an instance of a base class (`Component`, or any class with subclasses that add fields) fills a cache that subclasses inherit: their fields are no longer validated |
| C48 | `PersonProperty`, `PersonMultiProperty`, `PersonConverter` | refinement to independent variables; line round trip | URI properties with a colon raise `AttributeError` after one round trip (a quoted value is a `UserString`, which `urlparse` takes for bytes); empty values make the line unreadable; lower-case parameter names are not found; a string assigned to a multi-valued property becomes a list of characters |
| C49 | list converters, joining and splitting, `__merge_next` | induction over lines | several attendees on one line can be read but never written; *note:* URIs with commas are split |
| C50, C51 | `Normalization`, `utils` | arithmetic | C50: replacement `None`; ends given as duration may move; not atomic |
| C52 | alarm dispatch | case analysis | custom alarms are written with two ACTION lines, which cannot be read |
| C56 | reading and writing a calendar with events, todos, alarms, zones | composition of C41, C43 | – |
| C57, C58 | `Calendar(text)`, `serialize`, `parse_multiple` | composition of C08 and C56 | *note:* `Calendar(text)` loads the first container before it looks at the rest; `parse_multiple` with a stray line raises `KeyError` |
| C59 | `TimezoneMeta`, `TimezoneObservanceMeta`, `RecurrenceConverter`, `sorted`/`unique_justseen` | composition of per-line lemmas, uniqueness of increasing lists | an empty recurrence set is written but cannot be read; the zone of an aware DTSTART is lost; aware RDATEs raise `AttributeError`; rules with different starts raise `ValueError`; *note:* a set of dates only is written without DTSTART, which RFC 5545 requires; with `compatible=True` dateutil makes the DTSTART of a rule a date of the set (from memory, dateutil is not available), so a zone equal to the written one need not come back: the theorems let dateutil return any rules (`f` in `RepRules`), and the answers are the same if the occurrences are |
| C60 | same | invariant over the items | a VTIMEZONE without observances is accepted, and every query on it raises `IndexError`; *note:* the recurrence lines are serialized with folding before `dateutil` parses them |
| C61 | `ZoneLib`: the zone numbers of the environment are `TzObj`s, written by `dumpTimezone` and read by `loadTimezone` | naturality of reading in quotation marks, composition of C08, C57, C58, C59 | *note:* zones are compared as Python compares them (`EqTz`), a zone read back is the same zone if it is equal |
| C62 | `urlparse`, `geturl` of CPython 3.11 as called by `URIConverter` | invariant of parsed URLs, inversion of each splitting step | `http:foo` is written as `http:///foo` (a different URL) |
| C63 | `Timezone_from_tzinfo` and its converters, `is_utc`, `Timezone_from_offset`, `Timezone_from_tzid`, `is_builtin`, `to_builtin` | case analysis over the classes; inversion; C08 and C59 for files and fixed offsets | `timezone(timedelta(hours=5), 'UTC')` becomes UTC with offset zero, and a `Timezone` named UTC is written with `Z` whatever its offset is; zones with offset zero lose their name; pytz zones with DST and dateutil's `tzstr`, `tzrange`, `tzical` cannot be written; dateutil's `tzlocal` is written as floating time; the cache of `Timezone_from_tzinfo` never gives a result; `type(tz).__qualname__ == 'pytz.UTC'` is never true |
| C64 | `parse_line`, `unfold`, `Container.parse`, `serialize` | inversion of the parser: every accepted line and container meets the conditions of C04/C05; the normal form is written as the same text | — |
| C65 | the whole path from text to `Calendar` and back | invariants of loading: every value that was read is representable (`obj_rep`) and can be written (`load_writable`), by induction over the items and converters; then C41, C56, C57 | what gets lost is listed in `SafeLines`, `SafeEntryItems`, `SafeVal` (losses shown in C41, C49, C62) |
| C66 | the same, and writing again | `SameObj` is a congruence for writing (converter by converter); reading commutes with, and writing respects, every change of quotation marks; the normal form is written as the same text | — |
| C67 | `Model/Strip.lean`: `Component.strip_extras` | cases on the flags; a stripped component is written like one with explicit marks, which is representable | sharing of dictionaries between components (changes in place) |
| C68 | `Model/Registry.lean`: `unwrap_type`, `extract_attr_type`, `get_converter_for`, `sort_converters`, `find_converters`, the registries, `initialize_converters` and the attribute definitions of all classes | induction on the attributes; evaluation of `initialize_converters` for the tables | `ics_converter` in metadata (unused); how `attr` collects inherited attributes |
| C69 | `Model/Iter.lean`: `Calendar.__iter__`, `Calendar.__str__`, `str.splitlines` | induction on the text along the line ends | texts with line ends that only Python knows (false there) |
| C70 | `Model/Time.lean`: `TimeConverterClass` | case analysis on the digits, arithmetic | times in UTC and in local time (false there) |
| C71 | `Model/Rrule.lean`: `rrule.py` except `rrule_to_ContentLine` (C59) and the `repr`s | lookup in dictionaries, permutation of keys without repetition | hash of rules in another order, text of excluded rules (false there) |
| C72 | `Model/Entry.lean`: the setters of `CalendarEntryAttrs` | the characterization of `validate` of C20 | the documented rounding (false) |
| C73 | `Model/Describe.lean`: `replace`, `get_str_segments`, the `__str__`s | case analysis on the stored attributes | - |
| C74 | `Model/Parser.lean`: `ContentLineParser`; the grammar is `Spec/Grammar.lean` | the suffix parser of C02/C03 is sound and complete for the rules, by induction | - |
| C75 | `Model/Check.lean`: `check_parsed_line`; the pattern is `Spec/Pattern.lean` | from C74 | the converse and lines with empty last values or bad carets (false) |
| C76 | `Model/Duration.lean`, `Model/Datetime.lean`; the languages are in `Spec/Accepts.lean` | induction over the loop with the units left as invariant; two digits by cases; the days by summing up years and months | - |
| C77 | `Model/Query.lean`: the queries of entries, on top of those of spans | by the comparison lemmas of C30 and C31 | false for todos without times and for hours that occur twice (`C77_todo_fails`, `C31_instant_fails`) |
| C78 | `Model/Located.lean`: the parser once more, with line numbers; erasing them gives `Model/Parser.lean` (`C78_same`) | induction over the lines; the content line that begins on a line is defined by `takeWhile` in `Spec/Located.lean` | the last sentence is false of containers that begin with an empty container (`C78_container_fails`) |
| C79 | `Model/Located.lean`: messages, columns, `ParseError.__str__` | invariant of the parser: the delimiters left are all from the current position on; case analysis of the messages | - |
| C80 | the loader of `Model/Component.lean`, `Model/CalendarText.lean` | an invariant of the state of the loader: attributes that are lists stay lists, begin, end and precision are those of the DTSTART line and of the last DTEND or DUE line; literal tables of names in `Spec/Faults.lean`; the converse by the same invariant | - |
| C81 | `loadTimezone` of `Model/Vtimezone.lean` | the combinators of C80 and the invariants of C60 on the state of the loader; the reasons are inductive predicates in `Spec/ZoneFaults.lean` | rrulestr is a parameter |
| C82 | `dumpCalendar`, `serializeCalendar`, `Obj.setattr` | the tables of attributes of `Spec/Write.lean` are checked against the converters of each class; an invariant on the context (the zones noted are used, DTSTART is unset between entries) through all converters; the converse from the success of each converter | the zones' own writing is a parameter (`tzDump`); tuples and dictionaries given as times are not modelled |
| C83 | `loadCalendar`, `serializeCalendar` | reading establishes the types of C82 and that lists of parameters are kept only for list values; of these each line gives one group whose parameters agree, but for attendees; then C82 | zones without names and zones that cannot be written are hypotheses of the equivalence |
| C84 | `dumpTimezone` and below | each step raises exactly for its reasons; the steps are composed; an invariant of reading shows that only the rules remain | `str(rrule)` and the reading of rules are parameters |
| C85 | `serText` (`ContentLine.serialize`), `recurText` | induction over the chunks of the text; lines of a text that ends in line breaks | widths below 2 for several lines: false (C85_width_one_fails) |
| C86 | `serUnwrapped`, `serLine`, `serContainer`, `parseLine`, `stringToContainers` | what is parsed is writable except for what equality does not see; a tree that is equal to a parsed one unfolds into its lines, so that each of them was parsed | |
| C87 | `loadCalendar`, `parseSpanValue`, `populateSpan`, `postSpan`, `loadZones`, `Obj.timeline` | invariant `Said` over the lines read so far; the zones loaded from the calendar are its first ones of each name; C33 for the spans so obtained | order for other zones than UTC; an event on the last day makes the timeline raise (`C87_fails`) |
| C88 | `dumpObj`, `dumpCalendar`, all converters | each converter fills one place of the layout, which is a separate table; counting of lines over the places | what each line says is in C41 and C85; custom alarms have the layout, but their two ACTION lines (C52) break RFC 5545 |
| C89 | generators of `timeline.py` as state machines: not started, suspended with the heap, finished | executions of calls and changes of the calendar are simulated by the loops to their end (`Env.iterator`, `selectItems`) | events are values: changing an event that is in the heap is not modelled |
| C90 | `heapify`, `heappop` and `next` of `iterator` with a counter of comparisons | the counted versions give the same results as those of C33/C89; a sift takes at most twice the height of its subtree, and the heights add up to at most n | `heapq.py` of CPython is modelled; its C accelerator uses the same algorithm, but visits the positions of long lists in another order in `heapify`, which does not change the bound |
| C91 | `calendar.timeline` of C87 before and after the round trip of C57 and C65 | comparisons, heap and queries commute with replacing every zone object for UTC by one of them | timelines with a normalization; what Python's `==` says about the other attributes is represented by numbers |
| C92 | `tzinfo.fromutc` of CPython on top of `Timezone.utcoffset`, `dst` and the cache; the observance at an instant as RFC 5545 defines it | the observance found for the clock of standard time is the current one when that clock is in step with the changes | false in the hour after clocks are turned back (`C92_late`, `C92_fails`, `C92_convert_fails`) |
| C93 | the parser and writer of containers once more, with the number of nested calls that are still possible | induction over the lines, against a stack of the containers that are open (`deeper`) | C03 holds up to RecursionError only (`C93_fails`) |
| C94 | the same functions as C87 and C38 | the value of a single-valued attribute is traced from the line through `prepareParams`, the value converter and the attribute check (`load_single`), against a grammar of texts, numbers and times; the converse by composing C57 with it | organizer, attendees, attachments, geo and alarms are in C95; `C94_status_fails` and `C94_url_fails` are disagreements with RFC 5545 |
| C95 | the same functions as C94, with `AlarmMeta.load_instance`, `get_type_from_action`, `PersonConverter`, `GeoConverter` | as C94; multi-valued attributes through `load_multi` and the loop over the pieces of a line; alarms as members of their entry; the converse by composing C57 with it | nothing; urlparse, float() and b64decode are as modelled; `C95_attach_fails` and `C95_address_fails` are disagreements with RFC 5545 |
| C96 | `__eq__` and `__hash__` generated by attrs for components, time spans, lines and containers, `datetime.__eq__`/`__hash__` with the rule about `fold` of PEP 495 | `==` as a program equals a relation defined without orders of dictionaries; an invariant of loading gives the parameters of every list; then C57 and C65 | transitivity fails for zones like this library's `Timezone`; equality after a round trip fails for calendars that were not read; clones lose extra lines and parameters (each with a `_fails` theorem or an exact condition) |
| C97 | `BinaryConverter` with `base64.b64encode`/`b64decode` (lenient mode of `binascii.a2b_base64`) | an invariant of the loop: number in base 64 of the letters so far = number in base 256 of the bytes so far and the bits left over; the part that counts is unique | nothing; `binascii` is modelled by hand |
| C98 | the value converters with `AttributeValueConverter`, `Component.from_container`/`to_container` | sufficiency by the round trips of C10–C18; necessity by comparing what `parseDt_iff` and the like say about the written text with the value; for components by `load_single` and the parts of the written component | attributes with extra parameters: only sufficiency (C41) |
| C99 | writing and loading of events and todos with all attributes, time spans and alarms | necessity: C98 for every part; sufficiency: the table of the zones of the object that the reader knows makes it representable (C41) | components with extra parameters (sufficiency in C41); an entry with a custom alarm never survives |
| C100 | `dumpCalendar`, `loadCalendar` with all members | necessity: the converters' parts are a sublist of the written items, then C98 and C99 for each member with the zones that were read; sufficiency: as C99, with `rt_calendar` | calendars with extra parameters (sufficiency in C57) |
| C101 | `Timezone.utcoffset`/`dst`/`tzname` called with `None`, as `datetime.time` does; `time._cmp` | case analysis over observances and zone classes | *note:* `time(12, tzinfo=ics.UTC) == time(12)` and `!= time(12, tzinfo=timezone.utc)`; `tzname()` of a time in a zone with daylight saving raises `AttributeError` |
| C102 | `Component.__setattr__`, `add_attendee`, reading and writing of events and todos | frame lemma by induction over the changes (only attributes change), C65 for what was read, then C41 for the changed object; `_fails`: `load_multi` gives as many parameters as values | `event.add_attendee(…)` on an event that was read with an attendee makes `serialize` raise `ValueError`; so does removing or adding categories or attachments |
| C103 | editing a calendar: assignment, `calendar.events[i].attr = v`, `append`, `del`; reading and writing of texts | invariant "can be written and read back as text" (`Fine`), preserved by each step, from C65 at the start to C57 at the end; `_fails`: C102 and no member is skipped when a calendar is written | one `add_attendee` on an event that was read with an attendee makes `calendar.serialize()` raise |
| C104 | `Component.clone`, `add_attendee`, reading and writing of events and todos | C44 for the attributes of the clone; without parameters every value of a list is on a line of its own, which keeps `RepObj`; then C102's frame lemma and C41 | nothing |
| C105 | `Calendar.normalize` on component level (`events`, `todos`, assignment to `timespan` with its validator), reading and writing as in C65 | each normalized span is shown to be representable again (whole seconds from lawfulness and whole offsets; presence of begin, end and duration is kept, so that parameters still fit); C103's frame lemmas lift that to the calendar; C50 for idempotence | nothing; that times have to be settled is C99/C100 |
| C106 | the setters and methods of `CalendarEntryAttrs` on components (`Obj.timeEdit`, by `Env.edit` of C21), reading and writing as in C65 | invariant: all times are whole seconds in known zones, precision day or second; each operation keeps it (offsets below a day bound differences); with C102's frame lemma the result is representable | *disagreements:* `unset_all_day` gives the precision `seconds` instead of `second`; an entry read without dates has precision `None`, so that setting begin and then end or duration raises `KeyError` |
| C107 | the operations of C67, C103, C105, C106 and C109 and appending clones on a calendar in any order (`Obj.calOps`), reading and writing texts as in C65 | invariant `Fine` (representable and writable), kept by each operation; frame of the operations on times by induction; the failure by what a reader can give as precision | *disagreements:* as for C103 and C106; `strip_extras(extra_params=True)` before `add_attendee` avoids the one of C103 (`C107_attendee`) |
| C108 | `Component.clone` (`attr.evolve`) with the identities of lists, in-place changes of lists and assignments | invariant: no list is used twice; each operation keeps it and acts on one component only | *disagreement:* `EmailAlarm` has no `converter=list`, so that a clone shares `attendees` and `attach` with the original |
| C109 | assignments to the data of `extra` of a calendar, event or todo that was read, followed by writing and reading | sufficient: `RepCalendar` and `WritableCalendar` do not depend on `extra` otherwise, then C57; necessary: what is read has only unhandled items in `extra`, and the unquoted lists are equal | |
| C110 | the operations of sessions (`Obj.calOp`) that have a place | two neighbouring operations at different places can be exchanged; then induction over the sequence, with congruence for calendars that cannot be told apart | one event object at two places is not modelled |

## Axioms per theorem

Printed by `#print axioms` for every theorem of the manifest.

* no axioms (5): C101_offset, C36_single, C50_none_fails, C78_container_partial, C92_none

* `propext` (41): C101_mixed, C101_name, C10_injective, C10_roundtrip, C10_safe, C11_empty, C22_default, C22_exists, C23_fold_fails, C23_fraction_fails, C24_fails, C25_all_day, C25_convert_fails, C25_duration_fails, C25_replace_fails, C27_fails, C28_fails, C29_event_fails, C29_fails, C31_instant_fails, C33_fails, C35_second_fails, C35_touching_fails, C37_either_partial, C37_partial, C37_unambiguous_partial, C44_nested_fails, C47_atomic, C50_all_day, C50_time_aware, C50_time_idempotent, C50_time_instant, C53_fails, C68_optional_list_fails, C68_priority, C68_registered, C68_types, C75_refused, C76_offset_errors, C77_own_first, C89_late_error

* `Quot.sound`, `propext` (81): C01_roundtrip, C01_safe, C01_unescape_escape, C11_split_lossless, C12_error, C12_iff_grammar, C15_roundtrip, C18_binary, C22_partial, C25_convert_partial, C25_duration_partial, C25_local_partial, C26_errors, C28_to_end, C29_begin_partial, C29_due_partial, C29_end_partial, C30_fails, C30_symm, C31_fails, C31_swap, C32_fails, C32_partial, C33_all_day_fails, C33_exactly, C33_spans, C34_arguments, C34_included, C34_overlapping, C36_answers, C36_unique, C37_cache_bounded, C44_deep_partial, C44_deep_shared, C45_atomic, C45_checked, C45_del_slice, C45_extend_fails, C45_extend_iter_fails, C45_index_error, C45_insert, C45_set_range, C45_setitem_fails, C46_scoped, C47_history_partial, C50_floating, C50_span_aware, C50_span_idempotent, C50_span_instant_partial, C50_span_kept, C50_span_replaced, C51_days, C51_floor, C54_no_begin, C54_no_end, C54_not_needed, C68_attributes, C68_sorted, C68_values, C69_join, C73_replace, C73_replace_nothing, C74_unique, C75_check, C76_offset, C77_converse, C77_no_span, C77_span, C77_todo_fails, C89_at, C89_included, C89_iterator, C89_on, C89_overlapping, C89_prepare, C89_query, C89_startAfter, C89_timeline, C90_same, C91_queries, C92_single

* `Classical.choice`, `Quot.sound`, `propext` (425): C02_roundtrip, C02_unreadable, C03_document, C03_document_value_error, C03_only_parse_error, C04_serialized_line, C04_unfold_fold, C05_octets_fails, C05_octets_partial, C05_width, C05_width_one, C06_fold_independent, C07_blank_lines, C07_eol_independent, C08_roundtrip, C09_error, C09_iff_nested, C09_lossless, C100_iff, C100_same_name, C101_compare, C102_add, C102_attendee_fails, C102_edited_partial, C102_list_fails, C102_status, C103_attendee_fails, C103_lists, C103_others, C103_text_partial, C104_attendees, C104_clone, C104_edited, C105_again, C105_moved, C105_settings, C105_text, C106_edited_partial, C106_effect, C106_undated_fails, C106_unset_fails, C107_attendee, C107_copied, C107_later_partial, C107_order, C107_others, C107_stripped, C107_text_partial, C107_unset_fails, C108_email_fails, C108_independent_partial, C109_done, C109_iff, C109_needed, C109_others, C110_exchange, C110_first, C110_outcome, C110_same_place_fails, C11_roundtrip, C13_roundtrip, C13_truncates, C14_fails, C14_partial, C14_reads_grammar, C15_form, C16_date_partial, C16_naive_partial, C16_utc_partial, C16_year999_fails, C16_year99_fails, C17_local_fails, C17_partial, C17_rejects_multiple, C17_rejects_utc_and_tzid, C17_unserializable, C18_bool, C18_int, C18_int_limit, C19_dates_partial, C19_explicit_partial, C19_fails, C19_start_partial, C20, C21_atomic, C21_effect, C21_wellformed, C22_fails, C23_to_duration_partial, C23_to_end_partial, C23_unset_all_day_fails, C24_partial, C25_replace_partial, C25_succeeds_partial, C26_entries, C26_spans, C27_chronological_partial, C27_entries_partial, C27_transitive_partial, C28_to_duration_partial, C30_common, C30_exact_partial, C30_partial, C31_converse_partial, C31_includes, C31_instant_partial, C33_begin_partial, C33_no_error, C33_sorted_partial, C34_at_partial, C34_included_partial, C34_overlapping_partial, C34_start_after_partial, C34_subset_partial, C35_partial, C35_strict_partial, C36_latest, C37_fails, C38_alarm, C38_alarm_roundtrip, C38_calendar, C38_calendar_roundtrip, C38_entry, C38_entry_roundtrip, C38_write, C38_write_alarm, C38_write_calendar, C39_alarm, C39_calendar, C39_entry, C39_entry_repeated, C39_inside, C39_required, C40_alarm, C40_calendar, C40_entry_partial, C40_fails, C41_end_params_fails, C41_list_params_fails, C41_roundtrip_partial, C41_timeless_fails, C42_alarm_partial, C42_calendar_partial, C42_dtend_fails, C42_entry_partial, C42_parsed, C43_defined_once, C43_describes_partial, C43_extra_fails, C43_only_used, C43_same_name_fails, C44_attributes, C44_component_partial, C44_extra_fails, C45_history_partial, C45_index, C45_positions, C45_set_slice, C47_base_class_fails, C47_library_partial, C48_case_fails, C48_defaults, C48_empty_fails, C48_history, C48_independent, C48_other_params, C48_string_fails, C48_survive_partial, C48_uri_fails, C49_alarm_partial, C49_attendees_fail, C49_entry_partial, C49_spelling_partial, C50_calendar, C50_calendar_idempotent, C50_calendar_not_atomic, C51_ceil, C52_custom_fails, C52_read, C52_rejects, C52_same_class, C52_standard, C53_exact_partial, C53_partial, C55_partial, C55_strict_partial, C56_roundtrip, C57_roundtrip, C58_empty, C58_multiple, C58_one, C58_several, C59_answers_partial, C59_date_zone_fails, C59_dates_sorted, C59_empty_fails, C59_no_start, C59_one_start, C59_roundtrip_partial, C59_rule_lines, C59_start_zone_fails, C60_no_observances, C60_read, C60_required, C61_calendar_partial, C61_multiple_partial, C61_zone_partial, C62_brackets, C62_line, C62_parts, C62_same_partial, C62_slash_fails, C62_twice, C63_by_name, C63_database, C63_errors, C63_file_partial, C63_fixed_partial, C63_local, C63_named_utc_fails, C63_named_utc_written, C63_pytz_fixed, C63_survives, C63_to_builtin, C63_utc, C64_container, C64_document, C64_line, C65_calendar, C65_entry, C65_text, C66_accepted, C66_calendar, C66_entry, C66_same, C66_text, C67_again, C67_calendar, C67_effect, C67_entry, C67_own_lines, C67_refused, C68_lookup, C68_order, C68_tables, C68_zones, C69_calendar, C69_fails, C69_lines, C69_read_partial, C69_roundtrip_partial, C69_str, C70_known, C70_local_fails, C70_naive, C70_range, C70_read_utc, C70_short, C70_utc_fails, C70_utc_tzid, C70_zone_partial, C71_eq, C71_equivalence, C71_exrule, C71_hash_fails, C71_hash_partial, C71_other, C71_set_eq, C71_set_hash_partial, C71_str_fails, C71_str_partial, C72_begin_fails, C72_duration_fails, C72_half_second_fails, C72_succeeds, C73_fixed, C73_setters, C73_shows, C73_summary, C74_accepts, C74_distinct, C74_rejects, C75_pattern_fails, C75_pattern_partial, C75_unmatched_fails, C76_date, C76_datetime, C76_datetime_lenient, C76_duration, C76_duration_errors, C76_duration_lenient, C76_duration_unique, C76_offset_lenient, C76_zoned, C76_zones, C77_instant_partial, C77_meaning_partial, C78_container_fails, C78_lines, C78_nested, C78_same, C78_unfold, C79_culprit, C79_not_split, C79_readable, C79_str, C79_str_empty, C79_str_none, C79_text, C80_errors, C80_faults, C80_last_end, C80_multiple, C80_occur, C80_overflow, C80_rejects, C81_accepted, C81_calendar, C81_calendar_occur, C81_dates, C81_dates_mixed, C81_faults, C81_occur, C82_assign, C82_exact, C82_faults, C82_late, C82_late_list, C82_new, C82_occur, C82_plain, C82_typed, C83_occur, C83_raises, C83_text, C83_typed, C83_written, C84_calendar, C84_equal_dates, C84_errors, C84_exact, C84_faults, C84_occur, C84_read, C85_newline, C85_read, C85_recurrence, C85_same, C85_width_one_fails, C86_container, C86_line, C86_text, C87_fails, C87_no_error, C87_read, C87_timeline, C87_utc_sorted, C88_alarm, C88_alarm_rfc, C88_calendar, C88_entry, C88_event, C88_fails, C88_first, C88_todo, C89_earliest, C90_comparisons, C90_heapify, C90_heappop, C91_accepted, C91_roundtrip, C92_convert_fails, C92_convert_partial, C92_fails, C92_instant_partial, C92_late, C92_right_partial, C92_unique, C93_accepted, C93_fails, C93_parse, C93_short, C93_write, C94_bool, C94_int, C94_read, C94_status_fails, C94_text, C94_url_fails, C94_written, C95_address_fails, C95_attach_fails, C95_read, C95_written, C96_alarm_iff, C96_clone, C96_clone_entry, C96_entry_iff, C96_fold_fails, C96_hash, C96_iff, C96_loaded, C96_refl, C96_roundtrip, C96_roundtrip_fails, C96_symm, C96_text, C96_trans_fails, C96_trans_partial, C97_decode, C97_encode, C97_error, C97_strict_fails, C98_alarm, C98_alarms, C98_entry, C98_extra, C98_iff, C98_list, C98_percent_fails, C98_time, C98_url, C99_custom, C99_iff, C99_needed
