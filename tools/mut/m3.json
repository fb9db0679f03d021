[
{"file":"LList/Model","def":"unlink","old":"let l := if l.tail = some n then { l with tail := pv } else l\n  let l ← setNext","new":"let l ← setNext","claim":"C14: M_llist_last after the last node was removed"},
{"file":"LList/Model","def":"unlink","old":"| some q => setNext l q nx","new":"| some _ => some l","claim":"C14: a forward walk skips a removed node"},
{"file":"LList/Model","def":"insertUnsorted","old":"let l := if l.tail = none then { l with tail := some node } else l","new":"","claim":"C14: insert into an empty list sets last"},
{"file":"LList/Model","def":"insertUnsorted","old":"let l := if l.circular ∧ some q = l.head then { l with tail := some node } else l","new":"","claim":"C14: insert_after the last node of a circular list makes the new node last"},
{"file":"LList/Model","def":"insertUnsorted","old":"setPrev l q (some node)\n    some { l with elements := l.elements + 1 }","new":"some l\n    some { l with elements := l.elements + 1 }","claim":"C14: backward walk is the reverse of the forward walk"},
{"file":"LList/Model","def":"insertUnsorted","old":"setPrev l q (some node)\n    some { l with elements := l.elements + 1 }","new":"setPrev l q (some node)\n    some l","claim":"C14: len counts the nodes"},
{"file":"LList/Model","def":"moveBefore","old":"let l := if l.head = some before then { l with head := some move } else l","new":"","claim":"C14: moving before the first node makes it first"},
{"file":"LList/Model","def":"moveBefore","old":"| some q => setNext l q (some move)\n      some (true, l)","new":"| some _ => some l\n      some (true, l)","claim":"C14: move_before keeps the chain connected"},
{"file":"LList/Model","def":"moveAfter","old":"let l ← setPrev l move (some after)\n      let l ← setNext l move next","new":"let l ← setPrev l move next\n      let l ← setNext l move (some after)","claim":"C14: move_after: swapped links"},
{"file":"LList/Model","def":"setFirst","old":"tail := l.prev n, head := some n","new":"tail := l.next n, head := some n","claim":"C14: set_first of a circular list rotates it"},
{"file":"LList/Model","def":"setFirst","old":"else if l.elements ≤ 1 then some l\n  else if l.circular then some { l with tail","new":"else if l.elements ≤ 2 then some l\n  else if l.circular then some { l with tail","claim":"C14: set_first on a two element list"},
{"file":"LList/Model","def":"takeNode","old":"{ l with elements := l.elements - 1 }","new":"l","claim":"C14: len after remove"},
{"file":"LList/Model","def":"matchLoop","old":"if cnt = 1 ∧ ¬ all ∧ remove then some (cnt, l)\n    else if next = first","new":"if next = first","claim":"C14: remove_val without MATCH_ALL removes one value"},
{"file":"LList/Model","def":"findLoop","old":"if next = first then some none else findLoop","new":"findLoop","claim":"C14: find terminates on circular lists"},
{"file":"LList/Model","def":"insertVals","old":"(insert l v).bind","new":"(insertFirst l v).bind","claim":"C14: duplicate keeps the order"}
]
