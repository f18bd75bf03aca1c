"""Append the results of a batch of seeded bugs to seeded/LOG.jsonl.

usage: seedlog.py jobs.json results.jsonl [notes.json]
notes.json maps a job id to {"tightened": [...], "note": "..."}.
"""
import json, sys
jobs = {j['id']: j for j in json.load(open(sys.argv[1]))}
notes = json.load(open(sys.argv[3])) if len(sys.argv) > 3 else {}
with open('seeded/LOG.jsonl', 'a') as out:
    for line in open(sys.argv[2]):
        r = json.loads(line)
        if r.get('error'):
            continue
        j = jobs[r['id']]
        n = notes.get(r['id'], {})
        if 'edits' in j:
            j.setdefault('old', ' … '.join(e['old'] for e in j['edits']))
            j.setdefault('new', ' … '.join(e['new'] for e in j['edits']))
        e = {'definition': j['definition'], 'file': j['file'], 'edit': j['edit'], 'old': j['old'],
             'new': j['new'], 'claim': j['claim'], 'failed': r['failed'],
             'tightened': n.get('tightened', [])}
        if n.get('note'):
            e['note'] = n['note']
        out.write(json.dumps(e, ensure_ascii=False) + '\n')
