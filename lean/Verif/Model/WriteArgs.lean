import Verif.Model.FormatArgs
import Verif.Model.ConsoleProg
import Verif.Model.File

/-!
# Model of the overloads of `Write` and `WriteLine` (__Core/IO/Stream.h:65-260, __Core/File/File.h:176-302)

A call with one argument has the candidates `Write(const String&)`, the three templates for classes with a member that gives a
text, and the template `Write(const String&, Args&&...)` without further arguments; `File` has `Write(const char*)` as well. The
first is preferred to the last, which needs the same conversion and is a template. `Append` and `AppendLine`
(File.h:304-442) have the same overloads. `none`: the program does not compile.
-/

namespace Caitlyn.WriteArgs
open Caitlyn FormatArgs

/-- The templates for one argument (Stream.h:70-86 and the like, File.h:196-227). -/
def templates : List Template := [.has_to_string, .has_str, .convertible]

/-- `Write(argument)`: the selected function and the text it writes. For a `String` the function that is not a template is
preferred. -/
def pick (a : Arg) : Outcome :=
  match a with
  | .string s => .result (.ok s)
  | a =>
    match templates.filter (Template.viable a) with
    | [t] => t.body a
    | _ :: _ :: _ => .ambiguous
    | [] =>
      match a.conversion with
      | some r => .result r
      | none => .noMatch

/-- `Write(argument)` and, with `line`, `WriteLine(argument)` of a stream (Stream.h:65-86, 99-120; 132-153, 166-187; 199-220,
233-254). The argument is converted to a `String` before the call. -/
def console (line : Bool) (k : Console.Sink) (a : Arg) (st : Console.State) : Option (Res Console.Reply × Console.State) :=
  match pick a with
  | .result (.ok s) => some (Console.call st (if line then .writeLineValue k (Str.str s) else .writeValue k (Str.str s)))
  | .result (.error e) => some (.error e, st)
  | _ => none

/-- `Write(template, arguments...)` with at least one argument (Stream.h:88-92, 122-126; 155-159, 189-193; 222-226, 256-260). -/
def consoleFormat (line : Bool) (k : Console.Sink) (t : Str) (args : List Arg) (st : Console.State) :
    Option (Res Console.Reply × Console.State) :=
  match toStrings args with
  | some (.ok ts) => some (Console.call st (if line then .writeLine k (.formatted t ts) else .write k (.formatted t ts)))
  | some (.error e) => some (.error e, st)
  | none => none

/-- What `file_ << data` does to a C string: the bytes before the terminator. -/
def cString (mem : List UInt8) : Res (List UInt8) := if 0 ∈ mem then .ok (mem.takeWhile (· ≠ 0)) else .error .ub

/-- The end of a line. -/
def ending (line : Bool) : List UInt8 := if line then [0x0A] else []

/-- `File::Write(argument)`, `File::WriteLine(argument)` (File.h:176-227, 240-291). -/
def file (line : Bool) (a : Arg) (f : FileSys) : Option (Res Unit × FileSys) :=
  match a with
  | .chars mem =>
    match File.ensureOpen f, cString mem with
    | (.error e, f), _ => some (.error e, f)
    | (.ok _, f), .ok bytes => some (.ok (), File.put f (bytes ++ ending line))
    | (.ok _, f), .error e => some (.error e, f)
  | a =>
    match pick a with
    | .result (.ok s) => some (File.write f (Str.str s ++ ending line))
    | .result (.error e) => some (.error e, f)
    | _ => none

/-- `File::Write(template, arguments...)`, `File::WriteLine(template, arguments...)` with at least one argument (File.h:229-238,
293-302): the file is opened before the text is made. -/
def fileFormat (line : Bool) (t : Str) (args : List Arg) (f : FileSys) : Option (Res Unit × FileSys) :=
  match format t args, File.ensureOpen f with
  | none, _ => none
  | some _, (.error e, f) => some (.error e, f)
  | some (.ok s), (.ok _, f) => some (.ok (), File.put f (Str.str s ++ ending line))
  | some (.error e), (.ok _, f) => some (.error e, f)

end Caitlyn.WriteArgs
