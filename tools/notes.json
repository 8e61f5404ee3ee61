{
 "C13": {
  "status": "partial",
  "note": "The full claim is false of the code: C13_violated and C13_violated_stray_continuation prove its negation (m_lastOpcode is not reset by a final continuation frame). C13_partial and C13_any_receiver_partial prove it for sequences with no data frame behind a fragmented message; C13_actual_refused shows that every other RFC-conforming sequence is refused at the first data frame behind the fragmented message, by every receiver of either API, and C13_actual_stray that a stray continuation is accepted."
 },
 "C14": {
  "status": "partial",
  "note": "The full claim is false of the code: C14_violated proves its negation (continuation frames are delivered with opcode 0). C14_actual proves for every frame sequence the type each callback carries; C14_partial proves the claim for unfragmented messages. C14_actual_any_receiver says what happens instead, for every receiver of either API."
 },
 "C19": {
  "status": "partial",
  "note": "The full claim is false of the code: C19_violated proves its negation; C19_actual proves for every such data frame what happens instead. C19_actual_any_receiver and C19_actual_close_any_receiver say what happens instead, for every receiver of either API."
 },
 "C22": {
  "status": "partial",
  "note": "The full claim is false of the code: C22_violated proves its negation (a failed header write is not noticed). C22_partial proves the part that holds."
 },
 "C26": {
  "status": "partial",
  "note": "The full claim is false of the code: C26_violated proves its negation; C26_actual proves for every control message above 125 payload bytes that the send succeeds and the peer refuses it; C26_partial proves delivery up to 125 bytes. C26_actual_any_receiver says what happens instead, for every receiver of either API."
 },
 "C31": {
  "status": "partial",
  "note": "The full claim is false of the code: C31_violated proves its negation; C31_actual proves for every execution who gets the callbacks: data callbacks go to the new listener (C31_partial), control callbacks to the old one."
 },
 "C48": {
  "status": "partial",
  "note": "The full claim is false of the code: C48_violated proves its negation for connectAsync; C48_actual proves for every request that the null handle is handed to the request executor; C48_partial proves the claim for connect."
 }
}