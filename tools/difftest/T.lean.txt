import Verif.Json.Model
import Verif.Repl.Model
import Verif.Addr.Model
import Verif.Launch.Args
import Verif.Launch.Text
open Verif
def dec (s : String) : Str := if s = "" then [] else (s.splitOn ",").map String.toNat!
def enc (s : Str) : String := String.intercalate "," (s.map toString)
def decL (s : String) : List Str := if s = "" then [] else (s.splitOn ";").map fun x => dec (x.drop 1).toString
def encL (l : List Str) : String := String.intercalate ";" (l.map fun x => "=" ++ enc x)
def o (f : α → String) : Option α → String | none => "none" | some a => "some " ++ f a
def ex (f : α → String) : Except PyErr α → String | .error _ => "none" | .ok a => "some " ++ f a
mutual
partial def js : Json → String
  | .null => "n" | .bool b => if b then "t" else "f" | .int i => "i" ++ toString i
  | .float l => "F" ++ enc l | .str s => "s" ++ enc s
  | .arr l => "[" ++ String.intercalate "|" (l.map js) ++ "]"
  | .obj l => "{" ++ String.intercalate "|" (l.map fun p => enc p.1 ++ ":" ++ js p.2) ++ "}"
end
def bs (s : String) : Bytes := (dec s).map UInt8.ofNat
def res : Repl.Res → String
  | .template e => "T" ++ enc e | .remove n => "R" ++ enc n | .setOption n e => "O" ++ enc n ++ "/" ++ enc e
  | .setHostvar n e => "H" ++ enc n ++ "/" ++ enc e | .text => "X"
def env (up : Bool) : Addr.Env := ⟨fun _ => up, fun _ => true, id, py!"/tmp", py!"/rand"⟩
def ns (d : Dict Str Str) : String := String.intercalate "|" ((d.map fun e => enc e.1 ++ "=" ++ enc e.2).toArray.qsort (· < ·)).toList
def cmd : Launch.Command → String
  | .connect d p => "C" ++ ns d ++ "/" ++ encL p | .dap d => "D" ++ ns d | .listen d p => "L" ++ ns d ++ "/" ++ encL p
def eval (f a : String) : String := match f with
  | "shlex" => o encL (Repl.shlexSplit (dec a))
  | "repl" => o res (Repl.parseRepl (dec a))
  | "json" => o js (loads (dec a))
  | "jsond" => o (fun j => enc (dumps j)) (loads (dec a))
  | "int" => o toString (pyInt (bytesToCodes (bs a)))
  | "u8d" => o enc (utf8Decode (bs a))
  | "u8e" => o (fun b => enc (bytesToCodes b)) (Launch.utf8Encode (dec a))
  | "b64e" => "some " ++ enc (Launch.b64Encode (bs a))
  | "b64d" => o (fun b => enc (bytesToCodes b)) (Launch.b64Decode (dec a))
  | "quote" => "some " ++ enc (Launch.shQuote (dec a))
  | "url" => ex (fun (u : Addr.Split) => enc u.scheme ++ "/" ++ enc u.netloc ++ "/" ++ enc u.path ++ "/" ++ enc (Addr.hostnameOf (env true) u.netloc) ++ "/" ++ ex (fun p => o toString p) (Addr.portOf u.netloc)) (Addr.urlsplit (env true) (dec a))
  | "args" => o cmd (Launch.parseArgs true (decL a))
  | _ => "?"
def main : IO Unit := do
  let ls ← IO.FS.lines "/tmp/dt/in.txt"
  for l in ls do
    match l.splitOn "\t" with
    | [f, a] => IO.println (eval f a)
    | _ => IO.println "BAD"
