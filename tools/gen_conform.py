#!/usr/bin/env python3
"""Generate Verif/Props/Conform.lean: replay the tests of /repo/tests on the model.

Each C test program is translated to the sequence of API calls it makes; what it prints is taken from
its .ans file (and its assert(nr == N) lines), never from the model.
"""
import re, sys
T = '/repo/tests/'
OUT = '/verif/lean/Verif/Props/Conform.lean'
def rd(n): return open(T + n).read()
def bytes_of(s): return '[' + ', '.join(str(ord(c)) for c in s) + ']'
def z(n): return str(n) if n >= 0 else '(%d)' % n

FL = {'SHR_RDONLY', 'SHR_WRONLY', 'SHR_NONBLOCK', 'SHR_BUFFERED', 'SHR_DROP', 'SHR_FARM', 'SHR_MAXMSGS_2'}
def flags(s):
    parts = [p.strip() for p in s.split('|')]
    parts = ['0#32' if p == '0' else p for p in parts if p]
    return '(' + ' ||| '.join(parts) + ')'

# ---- tests 82-104: straight-line programs
def linear(i):
    s = re.sub(r'/\*.*?\*/', '', rd(f'test{i}.c'), flags=re.S)
    ans = rd(f'test{i}.ans').splitlines()
    sz = int(re.search(r'ring_sz = (\d+)', s).group(1)); nm = int(re.search(r'nmsg = (\d+)', s).group(1))
    m = re.search(r'char buf\[(\d+)\]', s); bl = int(m.group(1)) if m else 0
    fl = re.search(r'shr_init\(ring, ring_sz, ([^,]*), nmsg\)', s).group(1)
    body = s[s.index('int main'):]
    l = []
    toks = re.findall(r'(\w) = shr_open\(ring, ([^)]*)\)|shr_write\((\w), "([^"]*)", (\d+)\)|shr_read\((\w), buf, sizeof\(buf\)\)()|assert\(nr == (\d+)\)|(stats\(s\))|(printf\("read %\.\*s\\n")|(shr_close\((\w)\))', body)
    H = {'s': 0, 'r': 1}
    for t in toks:
        if t[0]: l.append([f'opn {H[t[0]]} {flags(t[1])}', '.opened'])
        elif t[2]:
            assert len(t[3]) == int(t[4]); l.append([f'wr {H[t[2]]} [{bytes_of(t[3])}]', None])
        elif t[5]: l.append([f'rd {H[t[5]]} {bl} 1', None])
        elif t[7]:
            if l[-1][0].startswith('wr'): l[-1][1] = f'.wrote {t[7]}'
            else: l[-1][1] = t[7]
        elif t[8]:
            v = list(map(int, re.findall(r'\d+', ans.pop(0)))); assert len(v) == 9
            l.append(['.stat 0 none {}', f'.stat {v}'])
        elif t[9]:
            a = ans.pop(0); assert a.startswith('read '); a = a[5:]
            assert l[-1][0].startswith('rd') and int(l[-1][1]) == len(a)
            l[-1][1] = f'.read {bytes_of(a)}'
        elif t[10]: l.append([f'.close {H[t[11]]} {{}}', '.closed'])
    for e in l:
        if e[1] is None or re.match(r'^\d+$', e[1]): e[1] = '.any' if e[1] is None else f'.count {e[1]}'
    assert not ans, (i, ans)
    return f'{{ dataSz := {sz}, flags := {flags(fl)}, maxMsgs := {nm} }}', l

# ---- event tests: processes W, R, F run the events of a table in order
def events(i):
    s = rd(f'test{i}.c'); ans = [x for x in rd(f'test{i}.ans').splitlines() if not re.match(r'[wrf]: (do_exit|exiting)', x)]
    nm = int(re.search(r'#define NMSG (\d+)', s).group(1))
    msg = re.search(r'char msg\[\] = "([^"]*)"', s).group(1); ms = len(msg) + 1
    m = re.search(r'ring_sz = \(sizeof\(msg\)\+0\)\*NMSG', s)
    sz = ms * nm if m else int(re.search(r'ring_sz = (\d+)', s).group(1))
    s2 = re.sub(r'/\*.*?\*/', '', s, flags=re.S)
    g = re.search(r'shr_init\(ring, ring_sz, ([^,)]*)(, NMSG)?\)', s2)
    fl = g.group(1)
    a = f'{{ dataSz := {sz}, flags := {flags(fl)}' + (f', maxMsgs := {nm}' if g.group(2) else '') + ' }'
    tab = re.search(r'ev\[\] = \{(.*?)\};', s2, re.S).group(1)
    ev = re.findall(r'\{ *(?:\d+, *)?(\w), *(\w+) *\}', tab)
    sw = re.search(r'switch\( ?ev\[i\]\.op ?\) ?\{(.*?)default:', s2, re.S).group(1)
    parts = re.split(r'case (\w+):', sw)
    body = {n: re.sub(r'\s+', ' ', t).strip() for n, t in zip(parts[1::2], parts[2::2])}
    ob = body['do_open']
    m = re.search(r'\? \(?([A-Z_| ]+?)\)? ?: \(?([A-Z_| ]+?)\)? ?\)', ob)
    of = {'R': m.group(1), 'F': m.group(1), 'W': m.group(2)}
    H = {}; nh = [0]
    seq = ord('a') if re.search(r"seq = 'a'", s2) else 0
    l = []
    def pop(): return ans.pop(0)
    def num(n):   # snprintf("%u") into a buffer of ms bytes, rest whatever it was: compare up to the NUL
        return str(n)
    bufs = {'v': '0' * 0}
    def wrmsg(n): # the message as written: digits, NUL, then old bytes of msg_one (zero here)
        t = num(n); return '[' + ', '.join([str(ord(c)) for c in t] + ['0'] * (ms - len(t))) + ']'
    pend = []; waiting = None
    def reads(p, n):
        while n > 0:
            if re.match(r'[wrf]: do_', ans[0]):   # the reader is waiting; the next event comes first
                l.append([f'rd {H[p]} {ms} 1', '.blocked']); pend.append((p, n)); return
            if not read1(p, False): return
            n -= 1
    def read1(p, single):
        x = pop()
        if x.startswith('shr_read: '):
            v = x[10:]
            if v == 'no data': l.append([f'rd {H[p]} {ms} 1', '.count 0']); return False
            l.append([f'rd {H[p]} {ms} 1', f'.count {z(int(v))}']); return False
        if single: l.append([f'rd {H[p]} {ms} 1', f'.read {bytes_of(x)}'])
        else: l.append([f'rd {H[p]} {ms} 1', f'.text {ms} {bytes_of(x)}'])
        return True
    for p, o in ev:
        if o == 'do_exit':   # no library call; the processes may exit in either order
            continue
        x = pop(); assert x == f'{p.lower()}: {o}', (i, x, p, o)
        b = body[o]
        if o == 'do_open':     # a handle reopened is a new handle
            H[p] = nh[0]; nh[0] += 1; l.append([f'opn {H[p]} {flags(of[p])}', '.opened'])
        elif o == 'do_close':
            # tests 36 and 76-81 close in F a handle that F never opened: F dies there
            if p in H: l.append([f'.close {H[p]} {{}}', '.closed'])
        elif o == 'do_farm_stat':
            r = re.search(r'shr_farm_stat\(s, (\d)\)', b).group(1)
            x = pop(); l.append([f'.farmStat {H[p]} {"true" if r == "1" else "false"}', f'.drops {int(x.split()[1])}'])
        elif o == 'do_fill':
            assert 'snprintf(msg_one, sizeof(msg_one), "%u", seq++); nr = shr_write(s, msg_one, sizeof(msg_one)); }' in b
            for _ in range(nm): l.append([f'wr {H[p]} [{wrmsg(seq)}]', '.any']); seq += 1
            if '} printf("w: wrote' in b:
                x = pop(); assert x == f'w: wrote {nm} messages (to seq {seq})', x
        elif o == 'do_read_half':
            reads(p, nm // 2)
        elif o == 'do_read_one':
            if 'no data' in b: read1(p, True)
            else: reads(p, 1)
        elif o == 'do_stat':
            if 'cache size' in b:
                v = list(map(int, re.findall(r'\d+', pop() + pop()))); assert len(v) == 6
                l.append([f'.stat {H[p]} none {{}}', f'.cache {v}'])
            else:
                x = pop(); assert x.endswith('stat: 0'), x
                v = list(map(int, re.findall(r'\d+', pop()))); assert len(v) == 9
                l.append([f'.stat {H[p]} none {{}}', f'.stat {v}'])
        elif o in ('do_flush_nb', 'do_flush_wait'):
            w = 'true' if 'shr_flush(s, 1)' in b else 'false'
            lim = 0 if 'nr <= 0' in b else -1
            if ans[0].startswith('shr_flush: '): l.append([f'.flush {H[p]} {w} {{}}', f'.wrote {z(int(pop()[11:]))}'])
            elif w == 'true': l.append([f'.flush {H[p]} true {{}}', '.flushed']); waiting = H[p]
            else: l.append([f'.flush {H[p]} {w} {{}}', f'.more {z(lim)}'])
        elif o == 'do_write_20b':
            t = ''.join(chr(seq + k) for k in range(20)); x = pop(); assert x == 'w: wrote ' + t
            l.append([f'wr {H[p]} [{bytes_of(t)}]', '.wrote 20']); seq += 1
        elif o.startswith('do_write_one'):
            if 'snprintf' in b:
                x = pop(); seq += 1
                m = re.match(r'w: (-?\d+); wrote 1 messages \(to seq (\d+)\)', x)
                if m: assert int(m.group(2)) == seq; e = f'.wrote {z(int(m.group(1)))}'
                else: assert x == f'w: wrote 1 message (to seq {seq})', x; e = '.any'
                l.append([f'wr {H[p]} [{wrmsg(seq-1)}]', e])
            else:
                k = {'do_write_one': 1}.get(o) or int(o[-2])
                t = chr(seq) * k; x = pop(); assert x == 'w: wrote seq ' + t
                l.append([f'wr {H[p]} [{bytes_of(t)}]', '.any']); seq += 1
        else: raise Exception((i, o))
        if waiting is not None and o.startswith('do_read'):   # a waiting flush goes on
            l.append([f'.flush {waiting} true {{}}', '.flushed']); 
        if p == 'W' and not o.startswith('do_flush'): waiting = None
        if o == 'do_fill':
            todo = pend[:]; pend.clear()
            for t in todo: reads(*t)
    assert ans == ['end'] and not pend, (i, ans)
    return a, l

# ---- tests translated by hand (calls from the C source, results from the .ans file)
def hand(i):
    A = lambda sz, fl='0', app=None: f'{{ dataSz := {sz}, flags := {flags(fl)}' + (f', app := {app}' if app else '') + ' }'
    W = lambda t, e='.more (-1)': ['wr 0 [%s]' % bytes_of(t), e]
    R = lambda t, n=10: [f'rd 1 {n} 1', f'.read {bytes_of(t)}']
    OW = lambda f='': [f'opn 0 {flags("SHR_WRONLY" + f)}', '.opened']
    OR = lambda f='': [f'opn 1 {flags("SHR_RDONLY" + f)}', '.opened']
    ST = lambda v: ['.stat 0 none {}', f'.cache {v}']
    CL = lambda k: [f'.close {k} {{}}', '.closed']
    ans = rd(f'test{i}.ans').splitlines()
    nums = [list(map(int, re.findall(r'-?\d+', x))) for x in ans]
    if i == 4:
        assert ans == ['writing ...ok', 'reading ...read 3 bytes', 'abc', 'end']
        return A(14), [OR(), OW(), W('abc'), R('abc'), CL(1), CL(0)]
    if i == 5:
        assert ans[1:4] == ['reading ...read 3 bytes', 'abc', 'reading ...read 0 bytes']
        return A(14), [OR('|SHR_NONBLOCK'), OW(), W('abc'), R('abc'), ['rd 1 10 1', '.count 0'], CL(1), CL(0)]
    if i == 6:
        assert ans[2] == 'abc' and ans[5] == 'def'
        return A(14), [OR(), OW(), W('abc'), R('abc'), W('def'), R('def'), CL(1), CL(0)]
    if i == 7:
        assert ans[2] == 'abc' and ans[5] == 'def' and ans[8] == 'ghi'
        return A(11), [OR(), OW(), W('abc'), R('abc'), W('def'), R('def'), W('ghi'), R('ghi'), CL(1), CL(0)]
    if i == 8:
        assert ans[3] == 'abc' and ans[5] == 'def'
        return A(6), [OR('|SHR_NONBLOCK'), OW(), W('abc'), W('def'), R('abc'), R('def'), CL(1), CL(0)]
    i32 = lambda n: f'[{n}, 0, 0, 0]'
    if i == 9:
        assert [x[0] for x in nums] == [0, 1, 1, 2]
        return A(8, 'SHR_APPDATA_1', i32(0)), [OR(),
            [f'.appdata 1 (.into 4) (some {i32(1)}) 4 {{}}', f'.app {i32(0)}'],
            [f'.appdata 1 (.into 4) (some {i32(2)}) 4 {{}}', f'.app {i32(1)}'], CL(1)]
    if i == 12:
        assert [x[0] for x in nums] == [10, 10, 20, 20]
        return A(8, 'SHR_APPDATA_1', i32(0)), [OR(),
            [f'.appdata 1 .null (some {i32(10)}) 4 {{}}', '.appNone'],
            [f'.appdata 1 (.into 4) none 4 {{}}', f'.app {i32(10)}'],
            [f'.appdata 1 (.into 4) (some {i32(20)}) 4 {{}}', f'.app {i32(10)}'],
            [f'.appdata 1 .alloc none 0 {{}}', f'.app {i32(20)}'], CL(1)]
    if i == 13:
        v = nums[0]; return A(13), [OW('|SHR_BUFFERED'), W('hello'), ['.stat 0 none {}', f'.cacheOnly {v}'], CL(0)]
    pairs = [nums[k] + nums[k + 1] for k in range(0, len(nums) - 1) if ans[k].startswith('ring')]
    if i == 14:
        return A(5), [OW('|SHR_BUFFERED'), W('hello'), ST(pairs[0]), CL(0),
            [f'opn 1 {flags("SHR_WRONLY|SHR_BUFFERED")}', '.opened'], ['.stat 1 none {}', f'.cache {pairs[1]}'], CL(1)]
    if i == 15:
        return A(5, 'SHR_DROP'), [OW('|SHR_BUFFERED'), W('hello'), ST(pairs[0]), W('world'), ST(pairs[1]), CL(0)]
    if i in (16, 17):
        assert ans[4] == 'non-blocking write: would block'
        l = [OW('|SHR_BUFFERED|SHR_NONBLOCK'), W('hello'), ST(pairs[0]), W('world'), ST(pairs[1]),
             W('there', '.wrote 0'), ST(pairs[2])]
        if i == 17: l += [OR(), ['rd 1 5 1', '.count 5']]
        l += [['.flush 0 false {}', f'.wrote {nums[-1][0]}'], CL(0)]
        if i == 17: l += [CL(1)]
        return A(5), l
    if i == 42:
        assert ans[0].endswith('ok') and ans[1].endswith('would block')
        d = re.search(r'data\[?\]? ?= ?"([^"]*)"', rd('test42.c')).group(1)[:3]
        return A(6), [OW('|SHR_NONBLOCK'), [f'wr 0 [{bytes_of(d)}, {bytes_of(d)}]', '.more 0'],
                      [f'wr 0 [{bytes_of(d)}]', '.wrote 0'], CL(0)]
    if i == 62:
        t = ans[0]; ap = re.search(r'app\[\] ?= ?"([^"]*)"', rd('test62.c')).group(1) + '\0'
        # printf %.*s stops at the NUL
        return A(8, 'SHR_APPDATA_1', bytes_of(ap)), [OR(), ['.appdata 1 .alloc none 0 {}', f'.appText {bytes_of(t)}'], CL(1)]
    if i in (28, 29):
        n = nums[-2][0] if i == 28 else nums[-2][0]
        if i == 28: return A(1024), [OR(), ['.readv 1 (List.replicate 100 0) 1 { waitRc := some .pollfd }', f'.count ({nums[1][0]})'], CL(1)]
        return A(100), [OW(), ['wr 0 [List.replicate 100 0]', f'.wrote {nums[1][0]}'],
                        ['.writev 0 [List.replicate 100 0] {} { waitRc := some .pollfd }', f'.wrote ({nums[2][0]})'], CL(0)]

HAND = [4, 5, 6, 7, 8, 9, 12, 13, 14, 15, 16, 17, 28, 29, 42, 62]
EV = [10, 11, 18, 19, 20, 21, 25, 26, 27, 36, 45, 46, 47, 48, 49, 50, 51] + list(range(66, 82))
LIN = list(range(82, 105))

def main():
    o = []
    head = open('/verif/tools/conform_head.txt').read()
    o.append(head)
    for i in sorted(HAND + EV + LIN):
        a, l = hand(i) if i in HAND else events(i) if i in EV else linear(i)
        o.append(f'/-- tests/test{i}.c, tests/test{i}.ans. -/')
        o.append(f'example : conforms {a} [\n  ' + ',\n  '.join(f'({x}, {e})' for x, e in l) + '] = true := by decide +kernel\n')
    o.append('end Shr')
    open(OUT, 'w').write('\n'.join(o) + '\n')
main()
