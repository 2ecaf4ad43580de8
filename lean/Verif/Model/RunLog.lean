import Mathlib.Data.List.DropRight

/-!
Model of what is printed and what is logged: `StreamToLogger` (kuka_carry/run.py:587-599, turtlebot_move/run.py:23-34). `sys.stdout` is
replaced by it (kuka_carry/run.py:265, turtlebot_move/run.py:54), so that every write of `print` is a call of `write`. The format of the log is
`%(message)s` (kuka_carry/run.py:251, 260), so that a message is a line of the file if there is no line break in it.
-/

namespace Verif.RunLog

abbrev Text := List Char

/-- The line breaks of `str.splitlines` (kuka_carry/run.py:594). -/
def isBreak (c : Char) : Bool :=
  c ∈ ['\n', '\r', Char.ofNat 11, Char.ofNat 12, Char.ofNat 28, Char.ofNat 29, Char.ofNat 30, Char.ofNat 0x85, Char.ofNat 0x2028, Char.ofNat 0x2029]

/-- The white space of `str.rstrip` (kuka_carry/run.py:594-595): the line breaks and the other spaces of Unicode. -/
def isSpace (c : Char) : Bool :=
  isBreak c || c ∈ [' ', '\t', Char.ofNat 31, Char.ofNat 0xa0, Char.ofNat 0x1680, Char.ofNat 0x2000, Char.ofNat 0x2001, Char.ofNat 0x2002,
    Char.ofNat 0x2003, Char.ofNat 0x2004, Char.ofNat 0x2005, Char.ofNat 0x2006, Char.ofNat 0x2007, Char.ofNat 0x2008, Char.ofNat 0x2009,
    Char.ofNat 0x200a, Char.ofNat 0x202f, Char.ofNat 0x205f, Char.ofNat 0x3000]

/-- `str.rstrip` (kuka_carry/run.py:594-595). -/
def rstrip (t : Text) : Text := t.rdropWhile isSpace

/-- `str.splitlines` (kuka_carry/run.py:594) with `line` already read: a carriage return and a line feed are one break, and after the last
break there is a line only if there is text. -/
def splitFrom (line : Text) : Text → List Text
  | [] => if line = [] then [] else [line]
  | '\r' :: '\n' :: t => line :: splitFrom [] t
  | c :: t => if isBreak c then line :: splitFrom [] t else splitFrom (line ++ [c]) t

/-- `str.splitlines` (kuka_carry/run.py:594). -/
def splitlines (t : Text) : List Text := splitFrom [] t

/-- `StreamToLogger.write` (kuka_carry/run.py:593-595): the messages that are logged. -/
def write (buf : Text) : List Text := (splitlines (rstrip buf)).map rstrip

/-- All messages after a series of writes (kuka_carry/run.py:593-595). -/
def logged (writes : List Text) : List Text := (writes.map write).flatten

/-- The writes of `print(*args)` (for example kuka_carry/run.py:322, 635): every argument, a space between two of them, a line feed. -/
def prints : List Text → List Text
  | [] => [['\n']]
  | [a] => [a, ['\n']]
  | a :: b :: rest => a :: [' '] :: prints (b :: rest)

end Verif.RunLog
