/- The character classes of ISO C in the C locale, as explicit sets of codes (independent of the model). -/
namespace Mes.Spec

def digits : List Int := [48, 49, 50, 51, 52, 53, 54, 55, 56, 57]
def lowers : List Int := [97, 98, 99, 100, 101, 102, 103, 104, 105, 106, 107, 108, 109, 110, 111, 112, 113, 114, 115,
  116, 117, 118, 119, 120, 121, 122]
def uppers : List Int := [65, 66, 67, 68, 69, 70, 71, 72, 73, 74, 75, 76, 77, 78, 79, 80, 81, 82, 83, 84, 85, 86, 87,
  88, 89, 90]
/-- Tab, newline, vertical tab, form feed, carriage return, space. -/
def spaces : List Int := [9, 10, 11, 12, 13, 32]
/-- The punctuation characters of the basic character set. -/
def puncts : List Int := [33, 34, 35, 36, 37, 38, 39, 40, 41, 42, 43, 44, 45, 46, 47, 58, 59, 60, 61, 62, 63, 64, 91,
  92, 93, 94, 95, 96, 123, 124, 125, 126]
/-- Control characters: 0–31 and DEL. -/
def cntrls : List Int := [0, 1, 2, 3, 4, 5, 6, 7, 8, 9, 10, 11, 12, 13, 14, 15, 16, 17, 18, 19, 20, 21, 22, 23, 24, 25,
  26, 27, 28, 29, 30, 31, 127]
def xdigits : List Int := [48, 49, 50, 51, 52, 53, 54, 55, 56, 57, 97, 98, 99, 100, 101, 102, 65, 66, 67, 68, 69, 70]

end Mes.Spec
