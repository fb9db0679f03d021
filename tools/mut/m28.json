[
 {
  "file": "Rand/Model",
  "def": "jumpTable",
  "old": "0xD5A61266F0C9392C",
  "new": "0xD5A61266F0C9392D",
  "claim": "jump = 2^128 calls"
 },
 {
  "file": "Rand/Model",
  "def": "jumpTable",
  "old": "0x180EC6D33CFD0ABA, 0xD5A61266F0C9392C",
  "new": "0xD5A61266F0C9392C, 0x180EC6D33CFD0ABA",
  "claim": "jump = 2^128 calls"
 },
 {
  "file": "Rand/Model",
  "def": "step",
  "old": "<<< 17",
  "new": "<<< 16",
  "claim": "full period"
 },
 {
  "file": "Rand/Model",
  "def": "step",
  "old": "rotl s3 45",
  "new": "rotl s3 44",
  "claim": "full period"
 },
 {
  "file": "Rand/Model",
  "def": "step",
  "old": "st.s1 ^^^ s2\n",
  "new": "st.s1 ^^^ st.s2\n",
  "claim": "full period"
 },
 {
  "file": "Rand/Model",
  "def": "step",
  "old": "st.s0 ^^^ s3\n",
  "new": "st.s0 ^^^ st.s3\n",
  "claim": "full period"
 },
 {
  "file": "Rand/Model",
  "def": "rotl",
  "old": "64 - r",
  "new": "63 - r",
  "claim": "full period"
 },
 {
  "file": "Rand/Model",
  "def": "out",
  "old": "rotl (st.s1 * 5) 7 * 9",
  "new": "rotl (st.s1 * 4) 7 * 9",
  "claim": "every number equally often"
 },
 {
  "file": "Rand/Model",
  "def": "out",
  "old": "rotl (st.s1 * 5) 7 * 9",
  "new": "rotl (st.s1 * 5) 7 * 10",
  "claim": "every number equally often"
 },
 {
  "file": "Rand/Model",
  "def": "splitmix",
  "old": "seed + 0x9E3779B97F4A7C15",
  "new": "seed",
  "claim": "a new generator is not in state zero"
 },
 {
  "file": "Rand/Model",
  "def": "jumpBits",
  "old": "let acc := if w &&& (1#64 <<< b) ≠ 0",
  "new": "let acc := if w &&& (1#64 <<< b) = 0",
  "claim": "jump = 2^128 calls"
 },
 {
  "file": "Rand/Model",
  "def": "jumpBits",
  "old": "jumpBits w n (b + 1) acc (rand st).2",
  "new": "jumpBits w n (b + 1) acc st",
  "claim": "jump = 2^128 calls"
 },
 {
  "file": "Rand/Model",
  "def": "jumpWords",
  "old": "jumpBits w 64 0 acc st).1 (jumpBits w 64",
  "new": "jumpBits w 64 0 acc st).1 (jumpBits w 63",
  "claim": "jump = 2^128 calls"
 },
 {
  "file": "Rand/Model",
  "def": "create",
  "old": "jump ⟨seed, a, b, c⟩",
  "new": "jump ⟨a, a, b, c⟩",
  "claim": "different seeds give different states"
 },
 {
  "file": "Rand/Model",
  "def": "create",
  "old": "if seed = 0 then entropy else seed",
  "new": "entropy",
  "claim": "different seeds give different states"
 },
 {
  "file": "Rand/Model",
  "def": "range",
  "old": "min ≥ max",
  "new": "min > max",
  "claim": "an empty range gives its lower end"
 },
 {
  "file": "Rand/Model",
  "def": "range",
  "old": "some (min, st) else some (0, st)",
  "new": "some (0, st) else some (min, st)",
  "claim": "an empty range gives its lower end"
 },
 {
  "file": "Rand/Model",
  "def": "range",
  "old": "r.1 ≥ randMax - randMax % range'",
  "new": "r.1 > randMax - randMax % range'",
  "claim": "number lies in the range"
 },
 {
  "file": "Rand/Model",
  "def": "range",
  "old": "if r.1 ≥ randMax - randMax % range' then range n r.2 min max\n      else ",
  "new": "",
  "claim": "number lies in the range, fairness"
 },
 {
  "file": "Rand/Model",
  "def": "range",
  "old": "min + r.1 / (randMax / range')",
  "new": "r.1 / (randMax / range')",
  "claim": "number lies in the range"
 },
 {
  "file": "Rand/Model",
  "def": "range",
  "old": "range n r.2 min max",
  "new": "range n st min max",
  "claim": "termination"
 },
 {
  "file": "Rand/Model",
  "def": "range",
  "old": "let range' := max - min",
  "new": "let range' := max - min + 1",
  "claim": "number lies in the range"
 },
 {
  "file": "Rand/Model",
  "def": "strLoop",
  "old": "BitVec.ofNat 64 charset.length",
  "new": "BitVec.ofNat 64 (charset.length + 1)",
  "claim": "nothing outside the set is read"
 },
 {
  "file": "Rand/Model",
  "def": "strLoop",
  "old": "acc ++ [c]",
  "new": "acc",
  "claim": "length"
 },
 {
  "file": "Rand/Model",
  "def": "randStr",
  "old": "(· ++ [0])",
  "new": "(· ++ [])",
  "claim": "zero byte at the end"
 },
 {
  "file": "Rand/Model",
  "def": "randStr",
  "old": "charset.length = 0 ∨ len = 0",
  "new": "len ≤ 1",
  "claim": "every length is made"
 }
]