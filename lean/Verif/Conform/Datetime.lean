import Verif.Conform.Basic
import Verif.Model.DtIso
/-
The model of `str` and `fromisoformat` against the `datetime` module of CPython 3.11.10.  Written by
`tools/conform_datetime.py`.
-/
namespace Fauxdoc
namespace Conform

/-- Values and their texts. -/
def printedValues : List (DT × String) := [
  (.date 1, "0001-01-01"),
  (.date 3652059, "9999-12-31"),
  (.date 730179, "2000-02-29"),
  (.date 693654, "1900-02-28"),
  (.date 693655, "1900-03-01"),
  (.date 739251, "2024-12-31"),
  (.date 739252, "2025-01-01"),
  (.time 0, "00:00:00"),
  (.time 86399999999, "23:59:59.999999"),
  (.datetime 86400000000, "0001-01-01 00:00:00"),
  (.datetime 315537983999999999, "9999-12-31 23:59:59.999999"),
  (.date 716740, "1963-05-15"),
  (.date 3335284, "9132-09-12"),
  (.date 3524676, "9651-03-27"),
  (.date 2721997, "7453-07-29"),
  (.date 724365, "1984-03-30"),
  (.date 716159, "1961-10-11"),
  (.date 2280699, "6245-05-05"),
  (.date 714203, "1956-06-03"),
  (.date 711932, "1950-03-16"),
  (.date 669429, "1833-11-01"),
  (.date 2591771, "7097-01-10"),
  (.date 554659, "1519-08-10"),
  (.date 878524, "2406-04-26"),
  (.date 718959, "1969-06-11"),
  (.date 834203, "2284-12-20"),
  (.date 712902, "1952-11-10"),
  (.date 701413, "1921-05-28"),
  (.date 1740245, "4765-08-18"),
  (.date 704268, "1929-03-22"),
  (.date 1263992, "3461-09-10"),
  (.date 2499717, "6844-12-28"),
  (.date 723288, "1981-04-18"),
  (.date 2016392, "5521-09-11"),
  (.date 2018377, "5527-02-17"),
  (.date 239080, "0655-07-31"),
  (.time 84174018945, "23:22:54.018945"),
  (.time 48180000000, "13:23:00"),
  (.time 79860000000, "22:11:00"),
  (.time 51752936075, "14:22:32.936075"),
  (.time 31740000005, "08:49:00.000005"),
  (.time 32520000005, "09:02:00.000005"),
  (.time 59940000005, "16:39:00.000005"),
  (.time 81245000005, "22:34:05.000005"),
  (.time 33060000000, "09:11:00"),
  (.time 85459000000, "23:44:19"),
  (.time 9514000000, "02:38:34"),
  (.time 85102001000, "23:38:22.001000"),
  (.time 14580001000, "04:03:00.001000"),
  (.time 39180767205, "10:53:00.767205"),
  (.time 16857000000, "04:40:57"),
  (.datetime 157477571666001000, "4991-04-07 01:54:26.001000"),
  (.datetime 61438578286000005, "1947-11-29 15:44:46.000005"),
  (.datetime 63141739620001000, "2001-11-18 04:07:00.001000"),
  (.datetime 314479852277000005, "9966-06-21 02:31:17.000005"),
  (.datetime 251713473815001000, "7977-06-25 09:23:35.001000"),
  (.datetime 62143877460497343, "1970-04-05 20:11:00.497343"),
  (.datetime 61899542249856350, "1962-07-08 21:17:29.856350"),
  (.datetime 62499026482000000, "1981-07-07 08:41:22"),
  (.datetime 63026850780000005, "1998-03-29 10:33:00.000005"),
  (.datetime 63182325946180173, "2003-03-02 22:05:46.180173"),
  (.datetime 63768937175000000, "2021-10-03 09:39:35"),
  (.datetime 61386147660000000, "1946-04-01 19:41:00"),
  (.datetime 60717021000000005, "1925-01-17 07:10:00.000005"),
  (.datetime 65790637346001000, "2085-10-26 17:02:26.001000"),
  (.datetime 240090767157000005, "7609-03-04 07:45:57.000005")]

/-- Timedeltas and their texts. -/
def printedSteps : List (Int × String) := [
  (0, "0:00:00"),
  (-86399999913600000000, "-999999999 days, 0:00:00"),
  (86399999999999999999, "999999999 days, 23:59:59.999999"),
  (-86400000000, "-1 day, 0:00:00"),
  (86400000000, "1 day, 0:00:00"),
  (172800000000, "2 days, 0:00:00"),
  (-172800000000, "-2 days, 0:00:00"),
  (-1, "-1 day, 23:59:59.999999"),
  (36000000000, "10:00:00"),
  (90000000000, "1 day, 1:00:00"),
  (36507897428, "10:08:27.897428"),
  (274283722317, "3 days, 4:11:23.722317"),
  (-187119356632, "-3 days, 20:01:20.643368"),
  (-220496428295, "-3 days, 10:45:03.571705"),
  (124829000000, "1 day, 10:40:29"),
  (53640852481, "14:54:00.852481"),
  (18626164390, "5:10:26.164390"),
  (148925000000, "1 day, 17:22:05"),
  (98305000000, "1 day, 3:18:25"),
  (14145000000, "3:55:45"),
  (-3895080924, "-1 day, 22:55:04.919076"),
  (56581237330, "15:43:01.237330"),
  (-23541257296, "-1 day, 17:27:38.742704"),
  (20844624752, "5:47:24.624752"),
  (212226520414, "2 days, 10:57:06.520414")]

/-- Texts and the values they are read as. -/
def readTexts : List (String × DT) := [
  ("0001-01-01", .date 1),
  ("9999-12-31", .date 3652059),
  ("2000-02-29", .date 730179),
  ("1900-02-28", .date 693654),
  ("1900-03-01", .date 693655),
  ("2024-12-31", .date 739251),
  ("2025-01-01", .date 739252),
  ("00:00:00", .time 0),
  ("23:59:59.999999", .time 86399999999),
  ("0001-01-01 00:00:00", .datetime 86400000000),
  ("9999-12-31 23:59:59.999999", .datetime 315537983999999999),
  ("1963-05-15", .date 716740),
  ("9132-09-12", .date 3335284),
  ("9651-03-27", .date 3524676),
  ("7453-07-29", .date 2721997),
  ("1984-03-30", .date 724365),
  ("1961-10-11", .date 716159),
  ("6245-05-05", .date 2280699),
  ("1956-06-03", .date 714203),
  ("1950-03-16", .date 711932),
  ("6037-01-16", .date 2204620),
  ("3235-03-27_12:00:30", .datetime 102062635230000000),
  ("5385-08-28", .date 1966706),
  ("1264-01-25 04:19", .datetime 39858581940000000),
  ("21:47:00", .time 78420000000),
  ("9938-01-07 00:27", .datetime 313581976020000000),
  ("8794-12-13", .date 3211924),
  ("13:37", .time 49020000000),
  ("04:27:00", .time 16020000000),
  ("23", .time 82800000000),
  ("2821-10-23T04", .datetime 89016206400000000),
  ("2101-10-20 06:02", .datetime 66294914520000000),
  ("12", .time 43200000000),
  ("20:23", .time 73380000000),
  ("4614-04-09T02", .datetime 145580724000000000),
  ("12", .time 43200000000),
  ("3044-09-17", .date 1111693),
  ("9881-06-24 12:03", .datetime 311797857780000000),
  ("2372-09-22", .date 866255),
  ("6460-09-20 22:22", .datetime 203849216520000000),
  ("8100-10-28", .date 2958400),
  ("1543-09-06 06:12", .datetime 48682275120000000),
  ("7995-07-16", .date 2919945),
  ("11:55:24", .time 42924000000),
  ("07:02:00", .time 25320000000),
  ("8728-06-28 04:07", .datetime 275412974820000000),
  ("4293-06-23 00:36", .datetime 135457490160000000),
  ("09:04", .time 32640000000),
  ("08:00", .time 28800000000),
  ("02", .time 7200000000),
  ("9149-11-13 01:03", .datetime 288710355780000000),
  ("16", .time 57600000000),
  ("9879-07-06", .date 3608052),
  ("7933-09-19_12:33:00", .datetime 250332381180000000),
  ("09:30:05", .time 34205000000),
  ("22:05:51", .time 79551000000),
  ("06", .time 21600000000),
  ("1001-11-10_20:48:00", .datetime 31584113280000000),
  ("03:51:51", .time 13911000000),
  ("3250-02-09T15", .datetime 102532057200000000),
  ("2016-01-05T23:35:00.000", .datetime 63587720100000000),
  ("2016-01-05T11:27:55.995", .datetime 63587676475995000),
  ("2016-01-05T07:33:00.000000", .datetime 63587662380000000),
  ("2016-01-05T11:00:00.000000", .datetime 63587674800000000),
  ("2016-01-05T16:38:00.001000", .datetime 63587695080001000),
  ("2016-01-05T03:21:20.000000", .datetime 63587647280000000),
  ("2016-01-05T19:27", .datetime 63587705220000000),
  ("2016-01-05T15:31:00.000000", .datetime 63587691060000000),
  ("2016-01-05T21:03:00.034", .datetime 63587710980034000),
  ("2016-01-05T15:45:56.001", .datetime 63587691956001000)]

/-- Texts that are refused. -/
def refusedTexts : List String := [
  "26460-09-20 22:22",
  "8100-10-280",
  "79985-07-16",
  "0702:00",
  "8728-06-28 0-4:07",
  "T2",
  "9149-11-13 601:03",
  ":16",
  "9879-07-906",
  "9:30:05",
  "22:05:5",
  "206",
  "0.:51:51",
  "3250-02-09T195",
  "2016-01-05T23:35:009000",
  "2016-01-05T11:27:550995",
  "2016-01-05T07:3:00.000000",
  "2016-01-05T16:38:0.001000",
  "2016-1-05T03:21:20.000000",
  "26016-01-05T19:27",
  "2016-0:1-05T15:31:00.000000",
  "2016-01-05T2:03:00.034",
  "2016-01-05T1:45:56.001",
  "60637-01-16",
  "32356-03-27_12:00:30",
  "5385-0828",
  "1264-01-5 04:19",
  "21:47:.00",
  "9938-01-07 00:7",
  "8794-42-13",
  "04:7:00",
  "2821-10-2T04",
  "20:23:",
  "4614-04 -09T02",
  "3044-0917",
  "9:881-06-24 12:03",
  "2372-09.22",
  "6460-09-20 22:T22",
  "1543-09-06 066:12",
  "37995-07-16",
  "4293-06-236 00:36",
  "021",
  "136",
  "09:30:053",
  "2:05:51",
  "0",
  "1001-511-10_20:48:00",
  "0:51:51",
  "3250--02-09T15",
  "2016-01-051T23:35:00.000",
  "2016-01-050T11:27:55.995",
  "2016-01-05T11:00:003.000000",
  "2016-01-05T03:21820.000000",
  "2016-01-05T15:1:00.000000",
  "2016-01-05T21:03:00:.034",
  "20126-01-05T15:45:56.001",
  "",
  "-",
  "24:00",
  "12:60",
  "12:00:60",
  "2015-02-29",
  "0000-01-01",
  "2016-13-01",
  "2016-00-01",
  "2016-04-31",
  "2016-04-00",
  "10:",
  "10:1",
  "1 day + 00:00:00"]

example : printedValues.all (fun p => p.1.str == p.2.toList) = true := by decide +kernel
example : printedSteps.all (fun p => strTd p.1 == p.2.toList) = true := by decide +kernel
example : readTexts.all (fun p => is (parseUserDate isoReaders (.str p.1)) p.2) = true := by decide +kernel
example : refusedTexts.all (fun s => parseUserDate isoReaders (.str s) == .error .valueError) = true := by
  decide +kernel

end Conform
end Fauxdoc
