import Verif.Tests.Common
/-!
# The unit tests of `src/suggester.rs` (1200–1489) which do not need `en_US`
-/

namespace Spellbook.Tests

/-- `deduplicate_test`. -/
example : deduplicate? [1, 1, 2, 2, 3, 3] = some [1, 2, 3] ∧ deduplicate? [1, 2, 3, 3] = some [1, 2, 3] ∧
    deduplicate? [1, 2, 3, 2, 3, 1] = some [1, 2, 3] ∧ deduplicate? [1, 1] = some [1] ∧ deduplicate? [1] = some [1] ∧
    deduplicate? ([] : List Nat) = some [] := by decide +kernel

/-- `unsafe_swap_adjacent_chars`. -/
example : (swapAdjacent? "exmaple".toList 2 'm' 'a').map Prod.fst = some "example".toList ∧
    (swapAdjacent? "épée".toList 2 'p' 'é').map Prod.fst = some "éépe".toList := by decide +kernel

/-- `unsafe_swap_distant_chars`. -/
example : (swapDistant? "example".toList 1 'x' 4 'p').map Prod.fst = some "epamxle".toList ∧
    (swapDistant? "iclaér".toList 0 'i' 4 'é').map Prod.fst = some "éclair".toList ∧
    (swapDistant? "éclair".toList 0 'é' 5 'i').map Prod.fst = some "iclaér".toList ∧
    (swapDistant? "épée".toList 0 'é' 3 'é').map Prod.fst = some "épée".toList := by decide +kernel

/-- `unsafe_replace_char_at`. -/
example : replaceCharAt? "bar".toList 2 'r' 'z' = some "baz".toList ∧
    replaceCharAt? "hello".toList 1 'e' 'é' = some "héllo".toList ∧
    replaceCharAt? "héllo".toList 1 'é' 'e' = some "hello".toList ∧
    replaceCharAt? "épée".toList 0 'é' 'e' = some "epée".toList := by decide +kernel

/-- `unsafe_move_char_suggest`. -/
example : suggests ""
    "1\n+×፠𝄎\n"
    [("×+፠𝄎", "+×፠𝄎"),
      ("+፠𝄎×", "+×፠𝄎"),
      ("፠+×𝄎", "+×፠𝄎")]
    [] := by decide +kernel

/-- `unsafe_two_words_suggest`. -/
example : suggests "TRY abfor-\n"
    "2\nfoo\nbar\n"
    [("foobar", "foo bar"),
      ("foobar", "foo-bar")]
    [] := by decide +kernel

/-- `keyboard_suggest`. -/
example : suggests "\n        KEY qwertyuiop|asdfghjkl|zxcvbnm\n        "
    "1\n        dream\n        "
    [("dteam", "dream"),
      ("dresm", "dream"),
      ("sream", "dream")]
    [("dredm", "dream")] := by decide +kernel

/-- `move_char_suggest`. -/
example : suggests ""
    "1\n        +×፠𝄎\n        "
    [("+×፠𝄎", "+×፠𝄎"),
      ("×+፠𝄎", "+×፠𝄎"),
      ("×፠𝄎+", "+×፠𝄎"),
      ("+፠×𝄎", "+×፠𝄎"),
      ("+፠𝄎×", "+×፠𝄎"),
      ("+×𝄎፠", "+×፠𝄎"),
      ("+፠×𝄎", "+×፠𝄎"),
      ("፠+×𝄎", "+×፠𝄎")]
    [] := by decide +kernel

/-- `map_suggest`. -/
example : suggests ("\n        MAP 4\n        MAP uúü\n        MAP oóö\n        MAP ß(ss)\n" ++
      "        MAP (foo)(bar)\n        ")
    ("6\n        hello\n        flüme\n        strauss\n        aßßa\n        foobar\n" ++
      "        barbar\n        ")
    [("hellö", "hello"),
      ("helló", "hello"),
      ("flume", "flüme"),
      ("strauß", "strauss"),
      ("assssa", "aßßa"),
      ("foofoo", "foobar"),
      ("foofoo", "barbar")]
    [] := by decide +kernel

/-- `rep_panic`. -/
example : suggests "\n        FLAG long\n\n        REP 1\n        REP è$ e\n        "
    "6\n        café/L'D'Q'\n        café/S.\n        "
    [("caféx", "café")]
    [] := by decide +kernel

/-- `camel_pascal_multibyte_panic`: it returns, without a panic. -/
example : suggestReturns "\n        SET UTF-8\n        REP 1\n        REP ä a_B\n        "
    "1\n        ba\n        " "BäB" := by decide +kernel

end Spellbook.Tests
