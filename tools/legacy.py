#!/usr/bin/env python3
"""Runs the cases of /repo/tests/legacy.rs on the model.

usage: tools/legacy.py SCRATCH

Copies lean/ to the directory SCRATCH, compiles the model there and runs it on the dictionaries of
/repo/tests/legacy, with the Unicode tables of Python for the characters which occur. As in legacy.rs, a
list of words which is not UTF-8 is skipped."""
import os, re, shutil, subprocess, sys, unicodedata
root = os.path.dirname(os.path.dirname(os.path.abspath(__file__)))
lab = sys.argv[1]
shutil.copytree(os.path.join(root, "lean"), lab, dirs_exist_ok=True)
src = "/repo/tests/legacy"

def change(path, pairs):
    path = os.path.join(lab, path)
    s = open(path).read()
    for old, new in pairs:
        assert s.count(old) == 1, old
        s = s.replace(old, new)
    open(path, "w").write(s)

# the proofs, and with them Mathlib, are not linked
change("Verif/Tests/Common.lean", [
    ("import Verif.Proof.Parse\n", ""),
    ("/-- `Dictionary::new(aff, dic)`",
     "def sorts : Sorts := ⟨fun k l => sortAffixes k l, ConversionTable.sortConv, sorry, sorry, sorry, sorry⟩\n\n"
     "/-- `Dictionary::new(aff, dic)`"),
    ("parse latin .default", "parse latin sorts")])

def decode(path):
    """`read_to_string` of legacy.rs; the encoding is the one named by SET instead of a guessed one."""
    b = open(path, "rb").read()
    if b.startswith(b"\xef\xbb\xbf"):
        b = b[3:]
    try:
        return b.decode("utf-8")
    except UnicodeDecodeError:
        m = re.search(rb"^SET\s+(\S+)", open(os.path.splitext(path)[0] + ".aff", "rb").read(), re.M)
        enc = m.group(1).decode() if m else "latin-1"
        return b.decode({"ISO8859-1": "cp1252"}.get(enc, enc), "replace")

rs = open(os.path.join(src, "../legacy.rs")).read()
cases = [(k, c) for k, c in re.findall(r"^(check|suggest)!\(\w+?_(\w+)\);", rs, re.M)]
out = os.path.join(lab, "cases")
os.makedirs(out, exist_ok=True)
chars = set()
for _, c in cases:
    for ext in ["aff", "dic", "good", "wrong", "sug"]:
        p = os.path.join(src, c + "." + ext)
        text = ""
        if os.path.exists(p):
            if ext in ["aff", "dic"]:
                text = decode(p)
            else:
                try:
                    text = open(p, "rb").read().decode("utf-8")
                except UnicodeDecodeError:
                    print("not UTF-8, skipped:", c, ext)
        chars |= set(text)
        open(os.path.join(out, c + "." + ext), "w", newline="").write(text)
for _ in range(3):
    for c in list(chars):
        chars |= set(c.upper() + c.lower())
with open(os.path.join(out, "unicode.txt"), "w") as f:
    for c in sorted(chars):
        cat = unicodedata.category(c)
        bits = [c.isupper(), c.islower(), cat[0] == "L" or cat in ("Nl", "Mn", "Mc"),
                c.isspace() and not "\x1c" <= c <= "\x1f", cat in ("Lu", "Ll", "Lt") or c.isupper() or c.islower(),
                cat in ("Mn", "Me", "Cf", "Lm", "Sk") or c in "'.:^`·’‘"]
        f.write(" ".join([str(ord(c)), "".join("01"[b] for b in bits), ",".join(str(ord(d)) for d in c.upper()),
                          ",".join(str(ord(d)) for d in c.lower())]) + "\n")
open(os.path.join(out, "list.txt"), "w").write("\n".join(k + " " + c for k, c in cases) + "\n")
open(os.path.join(lab, "lakefile.toml"), "w").write(
    'name = "verif"\ndefaultTargets = ["Verif"]\n[[lean_lib]]\nname = "Verif"\n[[lean_exe]]\nname = "legacy"\nroot = "Legacy"\n')
open(os.path.join(lab, "Legacy.lean"), "w").write('''
import Std.Data.HashMap
import Verif.Tests.Common
import Verif.Model.Debug
open Spellbook Spellbook.Tests

def codes (s : String) : List Char := ((s.splitOn ",").filterMap String.toNat?).map Char.ofNat

def readUnicode (path : String) : IO Unicode := do
  let mut m : Std.HashMap Char (List Bool × List Char × List Char) := {}
  for l in (← IO.FS.readFile path).splitOn "\\n" do
    match l.splitOn " " with
    | [c, b, u, d] => m := m.insert (Char.ofNat c.toNat!) (b.toList.map (· == '1'), codes u, codes d)
    | _ => pure ()
  let bit (i : Nat) (c : Char) : Bool := match m[c]? with | some (b, _) => b.getD i false | none => false
  return { isUpper := bit 0, isLower := bit 1, isAlpha := bit 2, isWs := bit 3
           upper := fun c => match m[c]? with | some (_, u, _) => u | none => [c]
           lower := fun c => match m[c]? with | some (_, _, d) => d | none => [c]
           cased := bit 4, caseIgnorable := bit 5 }

def lines (s : String) : List String := (s.splitOn "\\n").map fun l => (l.dropEndWhile (· == '\\r')).toString

def main (args : List String) : IO UInt32 := do
  let dir := args.head!
  let U ← readUnicode (dir ++ "/unicode.txt")
  let mut n : UInt32 := 0
  let mut tests := 0
  for l in (← IO.FS.readFile (dir ++ "/list.txt")).splitOn "\\n" do
    match l.splitOn " " with
    | [kind, case] =>
      let file (ext : String) : IO String := IO.FS.readFile (dir ++ "/" ++ case ++ "." ++ ext)
      let aff ← file "aff"
      let dic ← file "dic"
      match parse U sorts aff.toList dic.toList with
      | .error _ => IO.println s!"FAILED {kind} {case}: does not load"; n := n + 1
      | .ok D =>
        let C : Checker := { U, L := .default, dict := D }
        let good := (lines (← file "good")).map (·.trimAscii.toString)
        let wrong := (lines (← file "wrong")).map (·.trimAscii.toString)
        if kind == "check" then
          for w in good do
            tests := tests + 1
            unless C.check 50 w.toList matches .ok true do
              IO.println s!"FAILED {case}: accept {w}"; n := n + 1
            unless Debug.check C 50 w.toList matches .ok true do
              IO.println s!"FAILED {case}: accept {w} in a debug build"; n := n + 1
          for w in wrong do
            unless w == "" do
              tests := tests + 1
              unless C.check 50 w.toList matches .ok false do
                IO.println s!"FAILED {case}: reject {w}"; n := n + 1
              unless Debug.check C 50 w.toList matches .ok false do
                IO.println s!"FAILED {case}: reject {w} in a debug build"; n := n + 1
        else
          let expected := ((lines (← file "sug")).filter (· != "")).map (·.splitOn ", ")
          let mut got : List (List String) := []
          for w in (lines (← file "wrong")).filter (· != "") do
            match (C.intoSuggester .sample).suggest 50 50 w.toList [] with
            | .ok [] => pure ()
            | .ok r => got := got ++ [r.map String.ofList]
            | .error _ => IO.println s!"FAILED {case}: suggest {w} panics"; n := n + 1
          tests := tests + 1
          unless got == expected do
            IO.println s!"FAILED suggest {case}:\\n  expected {expected}\\n  found    {got}"; n := n + 1
    | _ => pure ()
  IO.println s!"{tests} tests, {n} failed"
  return n
''')
subprocess.run(["lake", "build", "legacy"], cwd=lab, check=True, stdout=subprocess.DEVNULL)
sys.exit(subprocess.run([os.path.join(lab, ".lake/build/bin/legacy"), out]).returncode)
