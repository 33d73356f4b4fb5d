import Verif.Tests.Common
/-!
# The unit tests of `src/checker.rs` (2619–3144) which do not need `en_US`
-/

namespace Spellbook.Tests

/-- `are_three_chars_equal_test`. -/
example : ([("aaa", 1), ("baaab", 2), ("baaab", 3)].all fun p => areThreeCharsEqual p.1.toList p.2) ∧
    ([("baaab", 1), ("baaab", 4), ("", 0), ("ab", 1)].all fun p => !areThreeCharsEqual p.1.toList p.2) := by
  decide +kernel

/-- `is_number_nuspell_unit_test`. -/
example : (["1234567890", "-1234567890", "123.456.78-9,0", "-123.456.78-9,0"].all fun s => isNumber s.toList) ∧
    (["", "123..456.78-9,0", "123.456.-78-9,0", "123..456.78-9-,0", "1.", "1,2,"].all fun s => !isNumber s.toList) := by
  decide +kernel

/-- `simplified_triple_requires_doubled_boundary_char`. -/
example : checks "CHECKCOMPOUNDTRIPLE\nSIMPLIFIEDTRIPLE\nCOMPOUNDMIN 2\nCOMPOUNDFLAG A\n"
    "3\npress/A\nbus/A\nski/A\n"
    ["presski"]
    ["pressski", "buski"] := by decide +kernel

/-- `check_sharp_upper_casing`. -/
example : checks "\n        CHECKSHARPS\n        "
    "3\n        aussaß\n        Äußern\n        bass\n        "
    ["aussaß", "Aussaß", "AUSSASS", "Äußern", "ÄUSSERN", "bass", "Bass", "BASS"]
    ["äußern", "baß", "bassa", "Bassa", "BASSA"] := by decide +kernel

/-- `check_apostrophe_upper_casing`. -/
example : checks ""
    "4\n        cent'anni\n        d'Intelvi\n        Anch'Egli\n        anch'Ella\n        "
    ["cent'anni", "d'Intelvi", "Anch'Egli", "anch'Ella", "CENT'ANNI", "D'INTELVI",
      "ANCH'EGLI", "ANCH'ELLA"]
    [] := by decide +kernel

/-- `iconv_test`. -/
example : checks "\n        ICONV 2\n        ICONV ﬃ ffi\n        ICONV ﬄ ffl\n        "
    "2\n        affine\n        affluent/Y\n        "
    ["affine", "aﬃne", "affluent", "aﬄuent"]
    [] := by decide +kernel

/-- `check_word_with_double_suffix`. -/
example : checks ("\n        SFX J Y 1\n        SFX J le ilidad/S ble\n\n        SFX S Y 2\n" ++
      "        SFX S 0 s [aceéfgiíkoóptuúw]\n        SFX S 0 es [bdhíjlmrúxy]\n\n" ++
      "        PFX k Y 1\n        PFX k 0 in [^blpr]\n        ")
    "2\n        perdurable/JS\n        trazable/kSJ\n        "
    ["perdurable", "perdurabilidad", "perdurables", "perdurabilidades", "trazable",
      "intrazable", "trazabilidad", "trazables", "intrazabilidad", "intrazables",
      "trazabilidades", "intrazabilidades"]
    [] := by decide +kernel

/-- `check_word_with_suffix_then_prefix_then_suffix`. -/
example : checks ("\n        SFX o Y 1\n        SFX o 0 suf2 .\n\n        SFX i Y 1\n" ++
      "        SFX i 0 suf1/o .\n\n        PFX p Y 1\n        PFX p 0 pre .\n        ")
    "1\n        stem/pi\n        "
    ["stem", "prestem", "prestemsuf1", "prestemsuf1suf2"]
    ["stemsuf2", "prestemsuf2"] := by decide +kernel

/-- `complex_prefixes_test`. -/
example : checks ("\n        COMPLEXPREFIXES\n\n        FLAG long\n\n        PFX p1 Y 1\n" ++
      "        PFX p1 0 pfx1 .\n\n        PFX p2 Y 1\n        PFX p2 0 pfx2/p1 .\n\n" ++
      "        SFX s1 Y 1\n        SFX s1 0 suf1 .\n\n        SFX s2 Y 1\n" ++
      "        SFX s2 0 suf2/p1 .\n        ")
    "2\n        stem1/p1p2s1\n        stem2/p2s2\n        "
    ["stem1", "pfx1stem1", "pfx2stem1", "pfx1pfx2stem1", "pfx1pfx2stem1suf1", "stem2",
      "pfx1stem2suf2", "pfx1pfx2stem2suf2"]
    ["pfx2pfx1stem1", "pfx1stem2", "pfx2pfx1stem2suf2"] := by decide +kernel

/-- `emoji_pfx_flag_test`. -/
example : checks ("\n        FLAG UTF-8\n\n        PFX 🔭 Y 2\n        PFX 🔭 0 macro [^r]\n" ++
      "        PFX 🔭 0 macror r\n        ")
    "1\n        concierto/hS🔭\n        "
    ["macroconcierto"]
    [] := by decide +kernel

/-- `rep_panic`. -/
example : checks ("\n        # At least this many letters in each word within a compound:\n" ++
      "        COMPOUNDMIN 1\n" ++
      "        # Don't allow autogenerated compounds that are very similar\n" ++
      "        # to some word in the dictionary:\n        CHECKCOMPOUNDREP\n" ++
      "        # For suffixes used to create first part of a compound\n" ++
      "        COMPOUNDPERMITFLAG W\n        # May appear first in compound words:\n" ++
      "        COMPOUNDBEGIN X\n        # May be middle elements in compound words:\n" ++
      "        COMPOUNDMIDDLE U\n        # May appear last in compound words:\n" ++
      "        COMPOUNDEND Y\n\n        REP 1\n        REP ochmed$ _och_med\n\n" ++
      "        SFX  f  N  2\n        SFX  f  a  s/WUZ  a\n        SFX  f  0  s/WUZ  [^a]\n\n" ++
      "        ")
    "3\n        träd/ABDXY\n        algoritm/ADHTXY\n        sökning/ADfGvY\n        "
    ["trädsökningsalgoritm"]
    [] := by decide +kernel

/-- `crossproduct_n`. -/
example : checks ("\n        SFX A N 1\n        SFX A 0 ed .\n        PFX B Y 1\n        PFX B 0 re .\n" ++
      "        ")
    "1\n        walk/AB\n        "
    []
    ["rewalked"] := by decide +kernel

/-- `compound_simplified_triple_rep_panic`: it returns, without a panic. -/
example : returns ("\n        COMPOUNDBEGIN B\n        COMPOUNDMIDDLE M\n        COMPOUNDEND E\n" ++
      "        COMPOUNDMIN 1\n        SIMPLIFIEDTRIPLE\n        CHECKCOMPOUNDREP\n" ++
      "        SFX S Y 1\n        SFX S de g .\n        ")
    "3\n        bba/B\n        abcde/MS\n        e/E\n        " "bbabcge" := by decide +kernel

/-- `compound_rule_three_part`. -/
example : checks "\n        COMPOUNDRULE 1\n        COMPOUNDRULE ABC\n        "
    "4\n        foo/A\n        bar/B\n        baz/C\n        barbaz/B\n        "
    ["foobarbaz"]
    [] := by decide +kernel

end Spellbook.Tests
