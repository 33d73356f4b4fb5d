#!/usr/bin/env python3
"""Runs the unit tests of /repo which need the en_US dictionary on the model.

usage: tools/en_us.py SCRATCH

Copies lean/ to the directory SCRATCH, compiles the model there and runs it on /repo/vendor/en_US. The
model's hash table is a list of slots; with 49468 entries that is too slow, so the copy gets a table with
the same answers (all keys collide, slots in the order of insertion, found through a hash map)."""
import os, shutil, subprocess, sys
root = os.path.dirname(os.path.dirname(os.path.abspath(__file__)))
lab = sys.argv[1]
shutil.copytree(os.path.join(root, "lean"), lab, dirs_exist_ok=True)

def change(path, pairs):
    path = os.path.join(lab, path)
    s = open(path).read()
    for old, new in pairs:
        assert s.count(old) == 1, old
        s = s.replace(old, new)
    open(path, "w").write(s)

change("Verif/Model/HashBag.lean", [
    ("structure Bag (V : Type) where\n  slots : List (Str × V)",
     "structure Bag (V : Type) where\n  rslots : List (Str × V)\n  map : Std.HashMap Str (List (Str × V)) := {}\n\n"
     "def Bag.slots {V} (b : Bag V) : List (Str × V) := b.rslots.reverse"),
    ("def empty : Bag V := ⟨[]⟩", "def empty : Bag V := ⟨[], {}⟩"),
    ("⟨b.slots ++ [(k, v)]⟩", "⟨(k, v) :: b.rslots, b.map.insert k (b.map.getD k [] ++ [(k, v)])⟩"),
    ("  (L.order b.keys).filterMap fun i => b.slots[i]?", "  b.slots"),
    ("  ((L.probe b.keys (L.hash k)).filterMap fun i => b.slots[i]?).filter fun e => k == e.1",
     "  b.map.getD k []"),
    ("⟨b.slots.set i (k', f v)⟩", "⟨b.slots.set i (k', f v), {}⟩")])
path = os.path.join(lab, "Verif/Model/HashBag.lean")
s = open(path).read()
open(path, "w").write("import Std.Data.HashMap\n" + s)
# the proofs, and with them Mathlib, are not linked
change("Verif/Tests/Common.lean", [
    ("import Verif.Proof.Parse\n", ""),
    ("/-- `Dictionary::new(aff, dic)`",
     "def sorts : Sorts := ⟨fun k l => sortAffixes k l, ConversionTable.sortConv, sorry, sorry, sorry, sorry⟩\n\n"
     "/-- `Dictionary::new(aff, dic)`"),
    ("parse latin .default", "parse latin sorts")])
open(os.path.join(lab, "lakefile.toml"), "w").write(
    'name = "verif"\ndefaultTargets = ["Verif"]\n[[lean_lib]]\nname = "Verif"\n[[lean_exe]]\nname = "enus"\nroot = "EnUs"\n')
open(os.path.join(lab, "EnUs.lean"), "w").write('''
import Verif.Tests.Common
open Spellbook Spellbook.Tests

def good := ["", "123456789", "adventure", "-any", "anyway-anywhere", "ace-", "concussive", "regenerative",
  "reroute", "drink", "Drink", "DRINK", "Achilles", "ACHILLES", "BBQ", "can’t", "unearthed", "10th", "11th",
  "12th", "57614th", "21st", "22nd", "123rd", "1234th"]

def bad := [String.join (List.replicate 360 "hello"), "achilles", "bbq", "Bbq", "undrink", "undrinks", "alice",
  "rsvp", "foobarbaz"]

def sugg : List (String × List String) := [("ansi", ["ANSI"]), ("adveenture", ["adventure"]),
  ("exsize", ["excise"]), ("helo", ["hello"]), ("wrld", ["world"]), ("hell", ["hello"]),
  ("faver", ["fiver", "faker", "favor"]), ("exmaple", ["example"]), ("examlpe", ["example"]), ("ende", ["need"]),
  ("rdema", ["dream"]), ("derma", ["dream"]), ("epamxle", ["example"]), ("bananana", ["banana"]),
  ("exexecute", ["execute"]), ("helloworld", ["hello world", "hello-world"]), ("hoell", ["hello"]),
  ("ellho", ["hello"])]

def main : IO UInt32 := do
  let aff ← IO.FS.readFile "/repo/vendor/en_US/en_US.aff"
  let dic ← IO.FS.readFile "/repo/vendor/en_US/en_US.dic"
  match load aff dic with
  | none => IO.println "does not load"; return 1
  | some C =>
    IO.println s!"{C.dict.words.slots.length} entries"
    let mut n : UInt32 := 0
    let test (b : Bool) (what : String) : IO UInt32 := do
      unless b do IO.println s!"FAILED {what}"
      return if b then 0 else 1
    for w in good do n := n + (← test (C.check 50 w.toList matches .ok true) s!"accept {w}")
    for w in bad do n := n + (← test (C.check 50 w.toList matches .ok false) s!"reject {w}")
    n := n + (← test (({ C with checkLowerAsTitle := true }).check 50 "alice".toList matches .ok true) "alice")
    n := n + (← test (({ C with checkLowerAsUpper := true }).check 50 "rsvp".toList matches .ok true) "rsvp")
    match C.dict.add latin "foobarbaz/G".toList with
    | .ok D =>
      for w in ["foobarbaz", "foobarbazing"] do
        n := n + (← test (({ C with dict := D }).check 50 w.toList matches .ok true) s!"added {w}")
    | .error _ => n := n + (← test false "add")
    n := n + (← test (C.dict.add latin (List.replicate 65536 'a') matches .error .wordTooLong) "add too long")
    for w in ["", String.join (List.replicate 360 "hello")] do
      n := n + (← test ((C.intoSuggester .sample).suggest 50 50 w.toList ["example".toList] matches .ok []) "no suggestion")
    for (w, r) in sugg do
      let s := suggestions C w
      IO.println s!"{w}: {s}"
      for x in r do n := n + (← test (s.contains x) s!"suggest {w} {x}")
    IO.println s!"{n} failed"
    return n
''')
subprocess.run(["lake", "build", "enus"], cwd=lab, check=True, stdout=subprocess.DEVNULL)
sys.exit(subprocess.run([os.path.join(lab, ".lake/build/bin/enus")]).returncode)
