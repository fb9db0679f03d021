[
{"file":"RwLock/Model","def":"tryRead","old":"s.lockcnt < 0 ∨ s.numWr > 0 then","new":"s.lockcnt < 0 then","claim":"writers that wait come before new readers"},
{"file":"RwLock/Model","def":"tryRead","old":"s.lockcnt < 0 ∨ s.numWr > 0 then","new":"s.numWr > 0 then","claim":"a reader does not enter while a writer holds the lock"},
{"file":"RwLock/Model","def":"tryWrite","old":"s.lockcnt ≠ 0 then","new":"s.lockcnt < 0 then","claim":"a writer does not enter while readers hold the lock"},
{"file":"RwLock/Model","def":"resumeWrite","old":"tryWrite { s with numWr := s.numWr - 1 } t","new":"tryWrite s t","claim":"the number of waiting writers is decremented after waking"},
{"file":"RwLock/Model","def":"resumeRead","old":"tryRead { s with numRd := s.numRd - 1 } t","new":"{ s with numRd := s.numRd - 1, lockcnt := s.lockcnt + 1, pcs := s.pcs.set t .holdR }","claim":"a woken reader checks the condition again"},
{"file":"RwLock/Model","def":"unlock","old":"let numWr := if lockcnt = 0 then s.numWr else 0","new":"let numWr := (0 : Int)","claim":"the last reader signals a waiting writer"},
{"file":"RwLock/Model","def":"unlock","old":"if s.numWr > 0 then .sigW else if s.numRd > 0 then .bcR else .idle","new":"if s.numWr > 0 then .sigW else .idle","claim":"a writer that unlocks wakes the readers"},
{"file":"RwLock/Model","def":"unlock","old":"if s.numWr > 0 then .sigW else if s.numRd > 0 then .bcR else .idle","new":"if s.numRd > 0 then .bcR else if s.numWr > 0 then .sigW else .idle","claim":"readers woken while writers wait go back to sleep and the writer is not signalled"},
{"file":"RwLock/Model","def":"unlock","old":"{ s with lockcnt := 0, pcs","new":"{ s with lockcnt := s.lockcnt + 2, pcs","claim":"a writer that unlocks leaves the lock free"}
]
